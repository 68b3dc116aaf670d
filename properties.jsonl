{"id": "C01", "title": "Word construction accepts exactly whitespace-free UTF-8", "statement": "Word(s) succeeds exactly when s is well-formed UTF-8 and contains no space, tab, line feed or carriage return. Ill-formed UTF-8 raises runtime_error, whitespace raises invalid_argument, and no input string triggers an assertion or undefined behaviour, with or without NDEBUG.", "quantifier": "all byte strings; both build types; every lower-casing function with the listed laws", "why_tests_cant": "Every input would have to be tried; the set is infinite.", "anchors": ["src/Word.cc Word::Word(const char*), convertString, hasWhitespace, hasBrokenSurrogates", "src/ColumbusHelpers.cc utf8ToInternal, isWhitespace"]}
{"id": "C02", "title": "UTF-8 round trip", "statement": "For a word built from UTF-8, asUtf8() returns the lower-cased text: building a Word from that text again gives an equal word, and a text without letters changed by lower-casing is returned byte for byte.", "quantifier": "all byte strings accepted by the constructor", "why_tests_cant": "Every input would have to be tried; the set is infinite.", "anchors": ["src/Word.cc asUtf8, toUtf8", "src/ColumbusHelpers.cc utf8ToInternal, internalToUtf8"]}
{"id": "C03", "title": "Case does not matter", "statement": "Two strings whose characters agree up to simple lower-casing give equal words, and every constructed word is already in lower case.", "quantifier": "all pairs of accepted strings", "why_tests_cant": "Every input would have to be tried; the set is infinite.", "anchors": ["src/ColumbusHelpers.cc lowerLetter, utf8ToInternal"]}
{"id": "C04", "title": "Conversions stay inside their buffers", "statement": "Building a Word from any string and calling asUtf8() on any word never writes outside the buffers the library allocates, also for multi-byte text where byte and letter counts differ.", "quantifier": "all byte strings and all letter sequences", "why_tests_cant": "Buffer arithmetic depends on the mix of 1 to 4 byte characters; no finite set of strings covers every combination.", "anchors": ["src/ColumbusHelpers.cc utf8ToInternal, internalToUtf8", "src/Word.cc asUtf8"]}
{"id": "C05", "title": "toUtf8 respects the caller's buffer", "statement": "Word::toUtf8(buf, bufSize) never writes outside buf[0..bufSize-1]: it either stores the text with its terminator or throws.", "quantifier": "all words and all buffer sizes", "why_tests_cant": "A one byte overrun shows only for the one buffer size that equals the text length and usually stays silent.", "anchors": ["src/ColumbusHelpers.cc internalToUtf8", "src/Word.cc toUtf8"]}
{"id": "C06", "title": "Words from letter arrays are well formed", "statement": "Word(letters, n) accepts only arrays without whitespace and without broken surrogate pairs, and rejects all others with invalid_argument.", "quantifier": "all letter arrays and lengths; both build types", "why_tests_cant": "Every input would have to be tried; the set is infinite.", "anchors": ["src/Word.cc Word::Word(Letter*, size_t), hasBrokenSurrogates"]}
{"id": "C07", "title": "Word comparison is a strict total order", "statement": "operator< is irreflexive, transitive and total, agrees with operator==, and orders a proper prefix before the longer word, so words can be used as keys of ordered containers.", "quantifier": "all triples of words", "why_tests_cant": "Every input would have to be tried; the set is infinite.", "anchors": ["src/Word.cc operator<, operator==, operator!="]}
{"id": "C08", "title": "Assignment leaves a usable word", "statement": "After `w = s`, whether it returns or throws, w is a valid word: reading its letters, comparing, copying and converting it are defined. Copy and move assignment transfer the value.", "quantifier": "all previous contents and all strings", "why_tests_cant": "The damage appears only when the object is used after the exception, and depends on the heap.", "anchors": ["src/Word.cc operator=(const char*), operator=(const Word&), operator=(Word&&), convertString, duplicateFrom"]}
{"id": "C09", "title": "join concatenates", "statement": "a.join(b) has length a.length()+b.length(), its letters are those of a followed by those of b, it contains no whitespace if neither does, and its UTF-8 text is the concatenation of the texts.", "quantifier": "all pairs of words", "why_tests_cant": "Every input would have to be tried; the set is infinite.", "anchors": ["src/Word.cc join"]}
{"id": "C10", "title": "hash is a function of the letters", "statement": "Word::hash() never reads outside the letters or the number table, and equal words hash equally; words that differ only in case of the source text hash equally.", "quantifier": "all words", "why_tests_cant": "Every input would have to be tried; the set is infinite.", "anchors": ["src/Word.cc hash, randomNumbers"]}
{"id": "C11", "title": "Splitting text into words", "statement": "splitToWords(t) succeeds exactly when t is well-formed UTF-8 and returns, in order, the words for the maximal runs of non-whitespace characters; none of them is empty and leading, trailing or repeated separators make no difference.", "quantifier": "all byte strings", "why_tests_cant": "Every input would have to be tried; the set is infinite.", "anchors": ["src/ColumbusHelpers.cc splitToWords, split, isInList"]}
{"id": "C12", "title": "Word identifiers are injective and stable", "statement": "In every history of getID calls on one word store, two calls return the same identifier exactly when the words are equal, no matter how many other words are added between them.", "quantifier": "all finite sequences of NUL-free words; every growth pattern of the backing file", "why_tests_cant": "Depends on the whole history and on when the backing store is remapped.", "anchors": ["src/WordStore.cc getID", "src/Trie.cc insertWord, findWord, hasWord"]}
{"id": "C13", "title": "Word identifiers are dense and invertible", "statement": "After any history, the identifiers handed out are 0..n-1 for n distinct words in order of first use; hasWord(id) holds exactly for these, getWord(getID(w)) == w at any later time, and any other identifier throws out_of_range.", "quantifier": "all finite sequences of NUL-free words accepted by the constructor", "why_tests_cant": "Depends on the whole history.", "anchors": ["src/WordStore.cc getID, getWord, hasWord(WordID)", "src/Trie.cc getWord, getSiblingTo, getParent"]}
{"id": "C14", "title": "Membership in a word store is exact", "statement": "hasWord(w) is true exactly for the words passed to getID before; in particular not for proper prefixes or extensions of stored words, and the query itself adds nothing.", "quantifier": "all histories and all words", "why_tests_cant": "Depends on the whole history and all possible probes.", "anchors": ["src/WordStore.cc hasWord", "src/Trie.cc hasWord, findWord"]}
{"id": "C15", "title": "Every word can be stored", "statement": "getID(w) works for every Word that can be constructed: it throws out_of_range for the empty word, leaving the store unchanged, and otherwise returns an identifier without undefined behaviour.", "quantifier": "all words, also those with NUL letters; all histories", "why_tests_cant": "The failing words are rare and the corruption is silent in release builds.", "anchors": ["src/WordStore.cc getID", "src/Trie.cc insertWord, walk over siblings"]}
{"id": "C16", "title": "Dictionary storage is memory safe and grows", "statement": "Any sequence of insertions and look-ups touches only the mapped file, keeps everything stored earlier when the file is doubled and remapped, and fails only by runtime_error when the operating system refuses the new size or the 32-bit size is exhausted.", "quantifier": "all insertion sequences; every answer pattern of the operating system", "why_tests_cant": "Requires growing past every doubling with every word mix and failure point.", "anchors": ["src/Trie.cc expand, append, addNewNode, addNewSibling"]}
{"id": "C17", "title": "LevenshteinIndex membership is exact", "statement": "hasWord(w) is true exactly for the non-empty words inserted before.", "quantifier": "all insertion histories and probes", "why_tests_cant": "Depends on the whole history.", "anchors": ["src/LevenshteinIndex.cc insertWord, hasWord"]}
{"id": "C18", "title": "Index counters are exact", "statement": "wordCount(id) is the number of insertions of that word, maxCount() the largest of these, numWords() the number of distinct words and numNodes() the number of distinct prefixes including the empty one.", "quantifier": "all insertion histories of NUL-free words", "why_tests_cant": "Depends on the whole history.", "anchors": ["src/LevenshteinIndex.cc wordCount, maxCount, numWords, numNodes", "src/Trie.cc numWords, numNodes"]}
{"id": "C19", "title": "findWords reports true errors", "statement": "Each (word, error) that findWords adds belongs to an inserted word, error is the minimum total cost over all ways of editing the query into the word with the configured insertion, deletion, substitution, end deletion, start insertion and transposition costs, and error <= maxError.", "quantifier": "all dictionaries of NUL-free words and queries, cost settings without int overflow whose insertion and deletion costs agree (C28 is about the others), and limits", "why_tests_cant": "The space of dictionaries, queries and cost settings is infinite and the result is an optimum over exponentially many edits.", "anchors": ["src/LevenshteinIndex.cc findWords, searchRecursive, findOptimalError", "src/ErrorMatrix.cc"]}
{"id": "C20", "title": "findWords misses nothing", "statement": "Every inserted word whose edit cost is at most maxError is reported.", "quantifier": "all dictionaries of NUL-free words and queries, non-negative cost settings and limits", "why_tests_cant": "A pruned search can lose rare combinations.", "anchors": ["src/LevenshteinIndex.cc searchRecursive pruning, minError"]}
{"id": "C21", "title": "findWords output is sorted and duplicate free", "statement": "Matches come in order of non-decreasing error, each inserted word is added at most once per call, and matches already in the container are kept.", "quantifier": "all dictionaries of NUL-free words, queries, settings and previous contents", "why_tests_cant": "Holds for any tie order of the sort.", "anchors": ["src/LevenshteinIndex.cc findWords", "src/IndexMatches.cc sort, addMatch"]}
{"id": "C22", "title": "Exact matches are always found", "statement": "If the query was inserted, findWords with any maxError >= 0 reports it with error 0, provided costs are non-negative and equal letters cost nothing.", "quantifier": "all dictionaries of NUL-free words containing the query; all non-negative costs without int overflow", "why_tests_cant": "Infinite domain.", "anchors": ["src/LevenshteinIndex.cc findWords"]}
{"id": "C23", "title": "A larger limit only adds matches", "statement": "With equal settings, every match reported for maxError a is reported with the same error for maxError b >= a.", "quantifier": "all dictionaries of NUL-free words and queries, settings and pairs of limits; costs without int overflow", "why_tests_cant": "Relates two runs for all inputs.", "anchors": ["src/LevenshteinIndex.cc searchRecursive"]}
{"id": "C24", "title": "Insertion order does not matter", "statement": "Inserting the same words in any order and with any repetitions gives the same set of matches with the same errors.", "quantifier": "all permutations of all insertion sequences of NUL-free words; all NUL-free queries; costs without int overflow", "why_tests_cant": "Relates all permutations.", "anchors": ["src/LevenshteinIndex.cc insertWord, findWords", "src/Trie.cc insertWord"]}
{"id": "C25", "title": "findWords never misbehaves", "statement": "With default or substring settings, or any moderate costs where insertion and deletion costs agree, findWords neither throws, asserts, overflows nor reads outside its matrix, for any query, also empty ones and ones longer than every stored word.", "quantifier": "all dictionaries of NUL-free words and NUL-free queries; costs bounded so that sums fit an int; both build types", "why_tests_cant": "Out-of-bounds reads need specific depth, length and letter coincidences.", "anchors": ["src/LevenshteinIndex.cc findOptimalError", "src/ErrorMatrix.cc", "include/ErrorMatrix.hh get"]}
{"id": "C26", "title": "Default errors are 100 times the edit distance", "statement": "With default settings the error reported for a word is 100 times the least number of insertions, deletions, substitutions and adjacent transpositions; swapping query and word gives the same value, and it is 0 exactly for equal words.", "quantifier": "all pairs of NUL-free words", "why_tests_cant": "Every input would have to be tried; the set is infinite.", "anchors": ["src/LevenshteinIndex.cc findOptimalError", "src/ErrorValues.cc ErrorValues::ErrorValues"]}
{"id": "C27", "title": "Substring mode favours substrings", "statement": "After setSubstringMode, a word that contains the query (of at least three letters) is matched with an error of at most 15 per letter before and after the occurrence; shorter queries pay the full cost for letters before it.", "quantifier": "all NUL-free words and queries", "why_tests_cant": "Every input would have to be tried; the set is infinite.", "anchors": ["src/ErrorValues.cc setSubstringMode", "include/ErrorValues.hh getStartInsertionError"]}
{"id": "C28", "title": "Insertion and deletion costs can be set independently", "statement": "setInsertionError and setDeletionError take effect for any pair of values: findWords works and a leading missing letter is charged as an insertion.", "quantifier": "all cost pairs", "why_tests_cant": "The defaults are equal, so the difference does not show.", "anchors": ["src/LevenshteinIndex.cc findWords 107-112", "src/ErrorMatrix.cc ErrorMatrix::ErrorMatrix"]}
{"id": "C29", "title": "Substitution cost is symmetric", "statement": "getSubstituteError(a,b) == getSubstituteError(b,a) after any history of calls, below and above the lookup-table boundary.", "quantifier": "all histories and letter pairs", "why_tests_cant": "65536^2 pairs times all histories.", "anchors": ["src/ErrorValues.cc getSubstituteError, setError, addToLUT, substituteErrorSlow"]}
{"id": "C30", "title": "Equal letters cost nothing", "statement": "getSubstituteError(a,a) == 0 after any history of calls.", "quantifier": "all histories and letters", "why_tests_cant": "Depends on the history and on the letter range.", "anchors": ["src/ErrorValues.cc setError, addToLUT, clearLUT"]}
{"id": "C31", "title": "The last setError wins", "statement": "After setError(a,b,e) the cost of substituting a for b, in either order, is e until the next call naming the same pair or a group containing both, whatever came before; other pairs keep their cost.", "quantifier": "all histories and pairs of different letters (C30 is about equal ones)", "why_tests_cant": "Depends on the whole history.", "anchors": ["src/ErrorValues.cc setError"]}
{"id": "C32", "title": "The lookup table is transparent", "statement": "A substitution cost does not depend on whether the letters are below the lookup-table limit: getSubstituteError returns what the maps of single errors and groups say.", "quantifier": "all histories and letter pairs", "why_tests_cant": "Depends on the order of calls and on the letter range.", "anchors": ["src/ErrorValues.cc getSubstituteError, substituteErrorSlow, addToLUT, addGroupErrorToLUT"]}
{"id": "C33", "title": "Groups set the cost of all member pairs", "statement": "After a successful setGroupError(g,e) on letters without individually set errors, any two different letters of g cost e, and pairs not both in g keep their cost.", "quantifier": "all histories, groups and letter pairs", "why_tests_cant": "Quadratic in the group, for all histories.", "anchors": ["src/ErrorValues.cc setGroupError, addGroupErrorToLUT"]}
{"id": "C34", "title": "A letter belongs to at most one group", "statement": "setGroupError throws runtime_error exactly when some letter already belongs to an earlier group; after the exception the costs of all letter pairs are as before.", "quantifier": "all histories and groups", "why_tests_cant": "The half-done state differs by position of the offending letter and by letter range.", "anchors": ["src/ErrorValues.cc setGroupError, isInGroup"]}
{"id": "C35", "title": "clearErrors restores default substitution costs", "statement": "After clearErrors, from any state, getSubstituteError is 0 for equal letters and 100 otherwise, no letter is in a group, and all the other settings are unchanged.", "quantifier": "all histories and letters", "why_tests_cant": "All histories.", "anchors": ["src/ErrorValues.cc clearErrors, clearLUT"]}
{"id": "C36", "title": "addStandardErrors", "statement": "On a fresh object with data files whose groups are disjoint, addStandardErrors succeeds and makes every accent variant of a letter cost 30; calling it a second time throws runtime_error.", "quantifier": "all data files with pairwise disjoint groups", "why_tests_cant": "All data files.", "anchors": ["src/ErrorValues.cc addStandardErrors, addAccents"]}
{"id": "C37", "title": "Keyboard neighbours", "statement": "After addKeyboardErrors every pair of neighbours set up by the routine costs 30; every other pair keeps its cost.", "quantifier": "all letter pairs; all previous states", "why_tests_cant": "All letter pairs and previous states.", "anchors": ["src/ErrorValues.cc addKeyboardErrors"]}
{"id": "C38", "title": "Number pad neighbours", "statement": "After addNumberpadErrors a digit and each letter on its own button cost 0, and a digit and each letter of a horizontally or vertically adjacent button cost 50.", "quantifier": "all digits and letters", "why_tests_cant": "Off-by-one errors affect single buttons.", "anchors": ["src/ErrorValues.cc addNumberpadErrors, setPadError"]}
{"id": "C39", "title": "Results are ranked", "statement": "In every interleaving of adding and reading, MatchResults lists exactly the results added, with non-increasing relevancy, ties in order of insertion, and getDocumentID(i), getRelevancy(i) belong together; indices beyond size throw out_of_range.", "quantifier": "all interleavings of addResult, addResults, getDocumentID, getRelevancy", "why_tests_cant": "Lazy sorting makes the state depend on when reads happen.", "anchors": ["src/MatchResults.cc"]}
{"id": "C40", "title": "copyResult copies the ranked result", "statement": "copyResult(other, i) appends the result other.getDocumentID(i)/getRelevancy(i) refer to.", "quantifier": "all states of both objects", "why_tests_cant": "Depends on whether the source was read before.", "anchors": ["src/MatchResults.cc copyResult"]}
{"id": "C41", "title": "Documents hold the last text of each field", "statement": "getText(f) returns the words last added for f and throws invalid_argument if there are none; getFieldNames lists each field once in word order; wordCount and totalWordCount count occurrences.", "quantifier": "all histories of addText", "why_tests_cant": "All histories.", "anchors": ["src/Document.cc", "src/Corpus.cc"]}
{"id": "C42", "title": "Result filters store what was added", "statement": "A filter is a list of terms of (field, word) pairs: addNewSubTerm appends to the last term, addNewTerm starts a new one, accessors return exactly these and throw out_of_range outside; no sequence of calls is undefined.", "quantifier": "all call sequences", "why_tests_cant": "All call sequences.", "anchors": ["src/ResultFilter.cc"]}
{"id": "C43", "title": "Search parameters and weights behave as maps", "statement": "isNonsearchingField holds exactly for the fields added; getWeight returns the last weight set for the field and 1.0 otherwise; getDynamicError is 100 below two letters and 200 from there on.", "quantifier": "all call sequences and words", "why_tests_cant": "All call sequences.", "anchors": ["src/SearchParameters.cc", "src/IndexWeights.cc"]}
{"id": "C44", "title": "match finds exactly the documents with a close word", "statement": "With an unfiltered search, a document is in the results of match exactly when some indexed word of it, in a field not excluded, is within the error limit of some query word.", "quantifier": "all histories of index, queries and parameters, of words made from C strings; cost settings for which findWords is complete", "why_tests_cant": "Involves all corpora, queries and settings.", "anchors": ["src/Matcher.cc match, relevancyMatch, matchIndexes, gatherMatchedDocuments"]}
{"id": "C45", "title": "Filters select by an OR of ANDs", "statement": "match with a filter returns exactly those results of the unfiltered match, with the same relevancy, whose document satisfies all (field, word) pairs of at least one term.", "quantifier": "all histories, queries and filters; every argument evaluation order", "why_tests_cant": "All filters.", "anchors": ["src/Matcher.cc match, subtermsMatch"]}
{"id": "C46", "title": "Each document is listed once in rank order", "statement": "The result of match has each document at most once, ordered by non-increasing relevancy, ties by ascending document identifier.", "quantifier": "all histories, queries and parameters", "why_tests_cant": "Depends on all corpora and on container iteration orders.", "anchors": ["src/Matcher.cc match", "src/MatchResults.cc"]}
{"id": "C47", "title": "Relevancy formula", "statement": "The relevancy of a document is the sum, over fields and matched words of that document in ascending identifier order, of 100/(100+error) * (1 - count/(maxCount+1)) * field weight, with the smallest error over the query words, in double arithmetic.", "quantifier": "all histories, queries, weights; every rounding function with the listed laws", "why_tests_cant": "All corpora and weights.", "anchors": ["src/Matcher.cc calculateRelevancy, addMatches, gatherMatchedDocuments"]}
{"id": "C48", "title": "match is deterministic", "statement": "The result of match does not depend on hash table iteration order, on the tie order of the sort or on the evaluation order of function arguments.", "quantifier": "all pairs of unspecified behaviours; all histories and queries", "why_tests_cant": "One platform shows one order only.", "anchors": ["src/Matcher.cc", "src/IndexMatches.cc sort"]}
{"id": "C49", "title": "Query order and repetition do not matter", "statement": "match gives the same results for queries with the same set of words.", "quantifier": "all pairs of queries with equal word sets; all histories", "why_tests_cant": "Relates all pairs of queries.", "anchors": ["src/Matcher.cc matchIndexes, addMatches"]}
{"id": "C50", "title": "Relevancy bounds and weights", "statement": "With non-negative weights and costs relevancy is never negative; each contribution is at most the field weight; raising the weight of a field never lowers a relevancy.", "quantifier": "all histories, queries and weights", "why_tests_cant": "All corpora and weights, with rounding.", "anchors": ["src/Matcher.cc calculateRelevancy", "src/IndexWeights.cc"]}
{"id": "C51", "title": "Indexing accumulates", "statement": "Indexing two corpora one after the other leaves the matcher in the same state as indexing their concatenation, and a document found before stays found.", "quantifier": "all histories and corpora", "why_tests_cant": "All histories.", "anchors": ["src/Matcher.cc index, buildIndexes, addToIndex"]}
{"id": "C52", "title": "Searching does not change answers", "statement": "match and onlineMatch leave the answers of all later calls unchanged.", "quantifier": "all histories and interleavings of searches", "why_tests_cant": "Relates all interleavings.", "anchors": ["src/Matcher.cc match, subtermsMatch, onlineMatch"]}
{"id": "C53", "title": "match never misbehaves", "statement": "With non-negative moderate costs match returns normally for every query: no exception, assertion, division by zero or undefined behaviour, unless a filter contains an empty word or the operating system refuses memory.", "quantifier": "all histories, queries and parameters; both build types", "why_tests_cant": "All corpora and queries.", "anchors": ["src/Matcher.cc match"]}
{"id": "C54", "title": "onlineMatch rejects unknown fields", "statement": "onlineMatch throws invalid_argument exactly when the primary field is not the name of an indexed field.", "quantifier": "all histories and fields", "why_tests_cant": "All histories.", "anchors": ["src/Matcher.cc onlineMatch"]}
{"id": "C55", "title": "onlineMatch and match return the same documents", "statement": "For a known field onlineMatch(query, field) lists the same set of documents as match(query).", "quantifier": "all histories and queries", "why_tests_cant": "All corpora and queries.", "anchors": ["src/Matcher.cc onlineMatch, countExacts"]}
{"id": "C56", "title": "onlineMatch score", "statement": "The score of a document in onlineMatch is its match relevancy plus 2 per query word found exactly in the primary field, plus 100 when the number of these equals both the number of query words and the number of words of the field text; a document whose field text equals the query gets the bonus, one whose text does not contain the same words does not.", "quantifier": "all histories and queries", "why_tests_cant": "All corpora and queries.", "anchors": ["src/Matcher.cc onlineMatch, countExacts"]}
{"id": "C57", "title": "Empty queries", "statement": "match with no query words returns no results and changes nothing, for any parameters.", "quantifier": "all states and parameters", "why_tests_cant": "All states.", "anchors": ["src/Matcher.cc match"]}
{"id": "C58", "title": "Non-searching fields are not searched", "statement": "Excluding a field with addNonsearchingField gives the results as if the field had weight and matches of nothing: only documents with a close word in another field remain, with relevancy from the other fields only; filters may still name the field.", "quantifier": "all histories, queries and field sets", "why_tests_cant": "All corpora.", "anchors": ["src/Matcher.cc matchIndexes", "src/SearchParameters.cc"]}
{"id": "C59", "title": "Dynamic and fixed error limits", "statement": "The documents found with dynamic error limits are a subset of those found without, and the two agree when every query word has at least two letters.", "quantifier": "all histories and queries", "why_tests_cant": "Relates two runs for all corpora.", "anchors": ["src/Matcher.cc matchIndexes", "src/SearchParameters.cc getDynamicError"]}
{"id": "C60", "title": "index interrupted by an exception", "statement": "If index throws at some word or field, everything processed before that point stays searchable and the matcher remains usable.", "quantifier": "all corpora and crash points", "why_tests_cant": "All crash points.", "anchors": ["src/Matcher.cc buildIndexes, addToIndex"]}
{"id": "C61", "title": "The C interface mirrors the C++ one", "statement": "Each C function returns what its C++ counterpart returns; when the counterpart throws, it returns the documented sentinel (null, 0, -1, INVALID_DOCID, 1.0) and no exception escapes.", "quantifier": "all handles and arguments", "why_tests_cant": "All arguments.", "anchors": ["src/ColumbusCAPI.cc"]}
{"id": "C62", "title": "C relevancy", "statement": "col_match_results_get_relevancy returns the relevancy of the i-th result.", "quantifier": "all results and indices", "why_tests_cant": "Wrong only in the value.", "anchors": ["src/ColumbusCAPI.cc col_match_results_get_relevancy"]}
{"id": "C63", "title": "Preset settings are always safe", "statement": "With error values made only by the preset operations of the library, a search for any text either throws runtime_error, exactly when the text is ill-formed UTF-8, or returns; without filters it lists exactly the documents with a word within the error limit of a query word, exact words included, and onlineMatch lists the same documents.", "quantifier": "all corpora, preset settings and query texts", "why_tests_cant": "All texts and all preset combinations.", "anchors": ["src/Matcher.cc match", "src/Matcher.cc onlineMatch", "src/ErrorValues.cc"]}
{"id": "C64", "title": "Statistics count occurrences", "statement": "After any use of a matcher, the total count kept for a word is the number of its occurrences in the texts indexed; words never given out count zero.", "quantifier": "all histories", "why_tests_cant": "All histories.", "anchors": ["src/MatcherStatistics.cc", "src/Matcher.cc addToIndex"]}
{"id": "C65", "title": "Word objects are values", "statement": "Constructing, copying, moving, joining, assigning, comparing and destroying Word objects has the outcome of the same program over values: no step is undefined and no object changes but the ones named.", "quantifier": "all programs over Word objects, all patterns of refused memory", "why_tests_cant": "Aliasing and refused allocations over unbounded programs.", "anchors": ["src/Word.cc"]}
{"id": "C66", "title": "Words do not leak", "statement": "The arrays in use are exactly those of the Word objects alive, each owned by one object; nothing is in use after the last one is destroyed.", "quantifier": "all programs over Word objects, all patterns of refused memory", "why_tests_cant": "Leaks do not change results.", "anchors": ["src/Word.cc", "src/ColumbusHelpers.cc utf8ToInternal"]}
{"id": "C67", "title": "Containers are values", "statement": "A program that uses no moved-from object except to destroy, move or move-assign it, and does not add a MatchResults to itself, sees WordList, MatchResults and Document objects as independent values; nothing is freed twice and nothing leaks.", "quantifier": "all such programs", "why_tests_cant": "Aliasing over unbounded programs.", "anchors": ["src/WordList.cc", "src/MatchResults.cc", "src/Document.cc"]}
{"id": "C68", "title": "Settings objects can be copied", "statement": "Copies of IndexWeights, SearchParameters, ErrorValues, MatcherStatistics and Matcher objects are independent and can all be destroyed.", "quantifier": "all programs", "why_tests_cant": "Double deletion may go unnoticed.", "anchors": ["include/IndexWeights.hh", "include/SearchParameters.hh", "include/ErrorValues.hh", "include/MatcherStatistics.hh", "include/Matcher.hh"]}
{"id": "C69", "title": "A word list is the sequence of words added", "statement": "After adding words one by one, WordList has exactly these words at positions 0, 1, ... in the order of addition; reading elsewhere throws out_of_range; two lists are equal exactly when they have the same words at the same positions, and != is the negation.", "quantifier": "all word sequences and positions", "why_tests_cant": "All sequences.", "anchors": ["src/WordList.cc", "include/WordList.hh"]}
{"id": "C70", "title": "IndexMatches holds what the searches found", "statement": "A container passed to any number of searches holds all their matches since the last clear, sorted by error; getMatch, getMatchError and getQuery give the word, the error and the query of each match and throw out_of_range elsewhere.", "quantifier": "all sequences of searches and clears, all tries", "why_tests_cant": "All sequences of searches.", "anchors": ["src/IndexMatches.cc", "src/LevenshteinIndex.cc findWords"]}
{"id": "C71", "title": "Accents are read from the data directory", "statement": "The accent files are looked up in the directory of COLUMBUS_DATADIR if it is set, else in the installed directory, with or without a slash at its end; each line of the file, the last one with or without newline, is one group; a missing file is an exception.", "quantifier": "all environments, file systems and file contents", "why_tests_cant": "All environments and files.", "anchors": ["src/ColumbusSlow.cc", "src/ErrorValues.cc addAccents"]}
{"id": "C72", "title": "Text is split at the given separators", "statement": "split(text, separators) cuts the text into its maximal runs without separator characters, and each run becomes a word; the first run that is no word decides the exception.", "quantifier": "all byte strings and separator lists", "why_tests_cant": "All strings and separators.", "anchors": ["src/ColumbusHelpers.cc split", "src/ColumbusHelpers.cc isInList"]}
{"id": "C73", "title": "Relevancies are accurate", "statement": "In IEEE double arithmetic the relevancy of a document with n matching words, with weights between 0 and 2^b, differs from the exact sum of 100/(100+error) * (1 - count/(maxCount+1)) * weight by at most n*(n+6)*2^(b-54); partial sums of i contributions stay between 0 and i*2^b, so nothing overflows.", "quantifier": "all matchers reachable by any interleaving of calls, all queries, parameters and weights", "why_tests_cant": "Rounding errors depend on every operand.", "anchors": ["src/Matcher.cc calculateRelevancy", "src/Matcher.cc gatherMatchedDocuments"]}
{"id": "C74", "title": "The order of indexing does not matter", "statement": "Two matchers that indexed the same texts in different orders or portions, with any searches in between and on different standard libraries, find the same documents for a query; their relevancies differ at most by rounding.", "quantifier": "all pairs of executions with the same texts, all queries and parameters", "why_tests_cant": "All permutations and interleavings.", "anchors": ["src/Matcher.cc index", "src/Matcher.cc match", "src/WordStore.cc"]}
{"id": "C75", "title": "Searching more never loses a document", "statement": "Without negative weights, a search with more query words, fewer excluded fields and no lower limits finds every document again, with no lower relevancy in double arithmetic.", "quantifier": "all reachable matchers, all pairs of queries and parameters", "why_tests_cant": "All pairs of queries.", "anchors": ["src/Matcher.cc match", "src/Matcher.cc matchIndexes", "src/SearchParameters.cc"]}
{"id": "C76", "title": "A word compares equal to its text", "statement": "A word is equal (operator== with const char* or std::string) to the text it was made from and to no other text; operator!= is the negation.", "quantifier": "all texts and words", "why_tests_cant": "All texts.", "anchors": ["src/Word.cc operator==", "src/Word.cc operator!="]}
{"id": "C77", "title": "The hash tells words apart", "statement": "Replacing one letter of a word by another changes its hash.", "quantifier": "all words, positions and letters", "why_tests_cant": "All words; tests do not look at hash values.", "anchors": ["src/Word.cc hash", "src/Word.cc randomNumbers"]}
{"id": "C78", "title": "Words taken from a list in Python stay valid", "statement": "In Python, a word taken from a WordList keeps its value whatever is added to the list afterwards; iterating over a list visits its words in order.", "quantifier": "all programs over a list and its items, all growth policies of std::vector", "why_tests_cant": "All programs; using memory that was given back often goes unnoticed.", "anchors": ["python/columbus.cc", "src/WordList.cc"]}
{"id": "C79", "title": "The cost table holds what was set", "statement": "A cell of an ErrorMatrix has the value set last, or its border value; set outside the table throws out_of_range and changes nothing; totalError is the cell of the last query letter and minError the least cell of a row up to there.", "quantifier": "all sizes, border costs without int overflow and sequences of set calls", "why_tests_cant": "All sizes and sequences; cells never set are not seen by tests.", "anchors": ["src/ErrorMatrix.cc", "include/ErrorMatrix.hh"]}
{"id": "C80", "title": "The costs set are the costs used", "statement": "Each scalar cost of ErrorValues (insertion, deletion, the ends of the query, transposition) is the one set last, or the default; substring mode sets the costs of the ends and their length limit; no other call changes them.", "quantifier": "all histories of calls, with exceptions caught; all query lengths", "why_tests_cant": "All histories; interference of calls shows only in combinations.", "anchors": ["include/ErrorValues.hh", "src/ErrorValues.cc ErrorValues", "src/ErrorValues.cc setSubstringMode"]}
{"id": "C81", "title": "queryindex prints the words within the limit", "statement": "Given a file with one word per line, a query word and a limit, the tool queryindex prints every word of the file (in lower case, once) whose edit distance from the query, times 100, is at most the limit, with that number, nearest first, and nothing else; it ends with code 0. Wrong arguments and lines that are no words are reported.", "quantifier": "all files, queries, limits and refusals of storage", "why_tests_cant": "All files and arguments; the exceptions are at buffer boundaries and depend on the build.", "anchors": ["tools/queryindex.cc loadData", "tools/queryindex.cc queryAndPrint", "tools/queryindex.cc runTest", "tools/queryindex.cc main"]}
{"id": "C82", "title": "queryapp and numberpad show the similar lines", "statement": "The graphical tools read a text file and, for each query, list exactly the lines that have a word similar to a word of the query, each once, most relevant first. queryapp: at most two edits, one for query words of one letter. numberpad: with number pad costs and substring mode. Other inputs are reported.", "quantifier": "all files, queries, orders of queries and refusals of storage", "why_tests_cant": "All files and queries; the exceptions are in single lines of a file.", "anchors": ["tools/queryapp.cc build_matcher", "tools/queryapp.cc doSearch", "tools/queryapp.cc main", "tools/numberpad.cc build_matcher", "tools/numberpad.cc doSearch"]}
{"id": "C83", "title": "hudtest shows the similar commands", "statement": "The tool hudtest reads a file of commands, one per line as path>name, and lists for each query exactly the commands whose path, name or additional name (magnetic lasso for Fuzzy Select) has a word similar to a word of the query with standard errors and substring mode, each once with its two parts, most relevant first; paths weigh 0.3, additional names 0.8. Lines without a name are left out. Other inputs are reported.", "quantifier": "all files, data files, queries, orders of queries and refusals of storage", "why_tests_cant": "All files and queries; the exceptions are in single lines of a file and in the environment.", "anchors": ["tools/hudtest.cc splitShowableParts", "tools/hudtest.cc build_matcher", "tools/hudtest.cc doSearch", "tools/hudtest.cc main"]}
{"id": "C84", "title": "sctest shows the similar programs", "statement": "The tool sctest reads a directory of desktop files. In each file that is not hidden, the last line that gives a key (compared in lower case) a value of more than blanks counts; a file without a name is left out. For each query it lists exactly the files of which the name, generic name or comment has a word similar to a word of the query with standard errors and substring mode, each once, most relevant first; generic names weigh 0.6, comments 0.3. Files that cannot be opened, lines that are no text, and unusable data files are reported.", "quantifier": "all directories, data files, queries, orders of queries and refusals of storage", "why_tests_cant": "All directories and queries; the exceptions are in single lines of a file and in the environment.", "anchors": ["tools/sctest.cc processFile", "tools/sctest.cc buildCorpus", "tools/sctest.cc build_matcher", "tools/sctest.cc doSearch", "tools/sctest.cc main"]}
{"id": "C85", "title": "singleword lists the words within the limit", "statement": "The tool singleword reads a file with one word in each line. For a query that is a word it lists exactly the words of the file, in lower case and each once, whose edit distance times 100 is within the limit, with this value and in its order; an empty query changes nothing, one that is no word is reported. Too few arguments, a file that cannot be opened and lines that are no word are reported.", "quantifier": "all files, queries, limits and refusals of storage", "why_tests_cant": "All files and queries; the exceptions are files without a final newline, long lines, and texts that fill a fixed buffer.", "anchors": ["tools/singleword.cc readData", "tools/singleword.cc insertData", "tools/singleword.cc doSearch", "tools/singleword.cc main"]}
{"id": "C86", "title": "Tries give back what they took", "statement": "Whatever a program does with tries, catching exceptions, and whatever the system refuses: a destroyed trie has given back its private part, its file and its mapping, and a constructor that throws holds nothing.", "quantifier": "all programs that make, fill, ask and destroy tries, and all answers of the system to tmpfile, ftruncate, mmap and munmap", "why_tests_cant": "Refusals can come at every call, and a test sees results, not what the process still holds.", "anchors": ["src/Trie.cc Trie::Trie", "src/Trie.cc Trie::~Trie", "src/Trie.cc Trie::expand"]}
{"id": "C87", "title": "Words in the full_unicode build", "statement": "In the full_unicode build a word is accepted for exactly the well-formed blank-free texts, has one letter per character, lower-cased in every plane, turns back into text, and compares by code points; every word that can be made has a text.", "quantifier": "all byte strings, all letter arrays, both assertion settings, any lower-casing table meeting the stated laws", "why_tests_cant": "The test suite runs in one configuration; texts and letter arrays are unbounded.", "anchors": ["src/ColumbusHelpers.cc utf8ToInternal", "src/ColumbusHelpers.cc internalToUtf8", "src/Word.cc Word::Word", "include/ColumbusCore.hh.in LetterT", "CMakeLists.txt full_unicode"]}
{"id": "C88", "title": "Turning on debug messages changes nothing but the output", "statement": "In the build with debug messages every call of the matcher and of the error values leaves the same state and has the same results or exception as in the ordinary build.", "quantifier": "all programs of calls on one matcher, all texts, queries, filters and settings, both assertion settings, every unspecified order", "why_tests_cant": "The suite is built in one configuration, and the messages evaluate conversions that fail only for words the tests never make.", "anchors": ["include/ColumbusCore.hh.in debugMessage", "CMakeLists.txt debug_messages", "src/Matcher.cc Matcher::index", "src/Matcher.cc matchIndexes", "src/Matcher.cc gatherMatchedDocuments", "src/ErrorValues.cc ErrorValues::setGroupError"]}
{"id": "C89", "title": "The debug messages tell the truth", "statement": "The messages of indexing give the numbers of documents added, of fields, and per field of distinct words and prefixes; those of a search give per query word and searched field the number of words within the limit, per matched word the number of documents that have it, and the number of documents found.", "quantifier": "all histories of calls, all corpora, all queries and settings for which searches are exact", "why_tests_cant": "No test looks at the output.", "anchors": ["src/Matcher.cc Matcher::index", "src/Matcher.cc matchIndexes", "src/Matcher.cc gatherMatchedDocuments", "src/Matcher.cc Matcher::relevancyMatch", "src/LevenshteinIndex.cc LevenshteinIndex::numNodes"]}
{"id": "C90", "title": "numberpad's exact match prints what was dialled", "statement": "After a search numberpad has grep print exactly the lines of the file that begin with something dialled by the keys of the query, and the search lists those lines as well.", "quantifier": "all queries, file names and lines", "why_tests_cant": "The tools have no tests, and the command goes through the shell and grep.", "anchors": ["tools/numberpad.cc doExactMatch", "tools/numberpad.cc doSearch", "src/ErrorValues.cc ErrorValues::addNumberpadErrors"]}
{"id": "C91", "title": "C programs get the documents that their texts call for", "statement": "Every call of a C program that keeps the rules returns, and what it returns follows from the texts the program passed: a search lists each document once, and just those whose current texts have a word close to a word of the query; texts replaced under the same name in other case, later changes of a document after it was put into a corpus and deleted objects do not count; a text or query that is not UTF-8 changes nothing and gets null.", "quantifier": "all programs of allowed calls of any length, all texts, settings, weights and answers of the operating system", "why_tests_cant": "The C tests make a handful of calls on two documents; no number of programs covers all sequences of calls and all texts.", "anchors": ["src/ColumbusCAPI.cc", "src/Document.cc Document::addText", "src/Corpus.cc Corpus::addDocument", "src/Matcher.cc Matcher::index", "src/Matcher.cc Matcher::match"]}
{"id": "C92", "title": "A search looks only where it must", "statement": "findWords looks at each node of the trie at most once, and exactly at the beginnings of inserted words of which every shorter beginning can be reached from the query within the limit; so it goes no deeper than the query is long plus one letter for each time the limit pays for a missing letter, plus one, however long the inserted words are.", "quantifier": "all sets of inserted words, settings, queries and limits", "why_tests_cant": "The scalability test measures seconds on one word list; a bound on the nodes visited and on the depth of the recursion is a statement about all word lists and queries.", "anchors": ["src/LevenshteinIndex.cc LevenshteinIndex::findWords", "src/LevenshteinIndex.cc LevenshteinIndex::searchRecursive", "src/ErrorMatrix.cc ErrorMatrix::minError"]}
{"id": "C93", "title": "Python programs get what they ask for", "statement": "In a Python program that uses items of a list only until the list changes, gives no empty names of fields, adds no empty word to the text of a document, adds no results to themselves, keeps the end deletion error between 0 and 100 and its texts moderate, and has memory for what it indexes, every call returns or raises what can be said from the texts the program passed: texts are cut at the first NUL and raise RuntimeError if they are no UTF-8; words added to the text got from a document change the document but no copy of it; a search gives exactly the documents with a word close to a word of the query, each once, in the order of relevancy. Results added to themselves are undefined, and set_error and get_substitute_error are refused for all arguments.", "quantifier": "all programs of calls of the module, all texts, settings and builds", "why_tests_cant": "pythontest.py tries a few calls on fresh objects; here objects are shared, copied and changed in any order by programs of any length.", "anchors": ["python/columbus.cc", "src/WordList.cc", "src/Document.cc Document::getText", "src/MatchResults.cc MatchResults::addResults", "include/ColumbusCore.hh.in"]}
{"id": "C94", "title": "What a matcher holds and leaves", "statement": "Whatever was done with a matcher, it holds one private part, one open temporary file and one mapping for its store and for each field with at least one word, and no more. The mapping of a field has the least length, of 1024 and its doublings, above 4 bytes and 32 for each distinct prefix of the words of that field; that of the store goes by all words and names of fields, and filter words looked up. The destructor frees every private part and closes every file but leaves every mapping, so that a process loses that memory for each matcher it destroys.", "quantifier": "all texts, all interleavings of index, match, onlineMatch and settings, all sequences of matchers", "why_tests_cant": "No test looks at the memory of the process, and a leaked mapping fails no call until the address space is full.", "anchors": ["src/Matcher.cc Matcher::~Matcher", "src/Trie.cc Trie::~Trie Trie::expand", "src/WordStore.cc", "src/LevenshteinIndex.cc"]}
{"id": "C95", "title": "Similarity is mutual", "statement": "If leaving out a letter has the same price at every place and in both directions, as with default settings and whatever accents, keyboards and number pads were added, then a search for a word q finds the word w with some error exactly if a search for w finds q with this error. Reading both words backwards does not change the error, and the error of two words put together is at most the sum. It is not mutual in substring mode, and errors do not satisfy the triangle inequality.", "quantifier": "all words, all indexes holding them, all limits, all histories of settings with even prices", "why_tests_cant": "It relates the searches of two different indexes over all pairs of words; tests only compare single errors with expected numbers.", "anchors": ["src/LevenshteinIndex.cc LevenshteinIndex::findWords LevenshteinIndex::searchRecursive", "src/ErrorValues.cc ErrorValues::getSubstituteError"]}
{"id": "C96", "title": "What makes a document rank higher", "statement": "With no negative weights, a document having, in the same fields, all the words by which another document of the same search matched has at least its relevancy in double arithmetic, and is listed before it if its identifier is lower. Of two documents matching by one word each in the same field, the one whose word is closer to the query and not more frequent in the field has at least the relevancy of the other. Having a word of the query itself is not enough: a document with only a similar but rarer word can be listed first.", "quantifier": "all matchers reachable by any interleaving of calls, all queries, parameters and non-negative weights, all pairs of results", "why_tests_cant": "It compares all pairs of documents of all searches, rounding included; the tests look at the order of two or three documents.", "anchors": ["src/Matcher.cc Matcher::match calculateRelevancy gatherMatchedDocuments", "src/MatchResults.cc MatchResults::addResult MatchResults::sortIfRequired"]}
{"id": "C97", "title": "A trie after a refusal", "statement": "A program inserts words into a new trie, catches the runtime_error of any insertion the system makes fail, and goes on. The trie then has exactly the words whose insertion came back, counts them, and can go on being used. (False: this holds when only munmap is refused; a refused ftruncate or mmap leaves the trie without a mapping, and the next use is undefined behaviour.)", "quantifier": "all answers of the system to every call, all histories of insertions, all words looked up", "why_tests_cant": "No test makes the system refuse anything; the claim is over all refusals at all points of all histories, with the nodes they leave half made.", "anchors": ["src/Trie.cc Trie::insertWord Trie::addNewNode Trie::addNewSibling Trie::expand", "src/Trie.cc append", "include/Trie.hh Trie"]}
{"id": "C98", "title": "Walking through a trie", "statement": "After any insertions into a trie (words without NUL letters, one valid identifier per word), walking down from getRoot with getSiblingList, getNextSibling, getLetter and getChild spells exactly the beginnings of the words inserted, each at a node of its own; the records of a node have the letters that follow, each once, in the order of first use. At each node getWordID gives the identifier of the word that ends there or the invalid one, getParent and getSiblingTo lead back up, hasSibling says whether another record follows, getWord gives the letters back, and findWord leads there. Inserting a word again changes nothing.", "quantifier": "all histories of insertions, all nodes, both build types, all refusals of storage", "why_tests_cant": "The walk has as many steps as the tree has nodes, for every history; the tests look at a few words.", "anchors": ["src/Trie.cc getRoot getSiblingList getNextSibling getLetter getChild getWordID hasSibling getParent getSiblingTo getWord findWord insertWord", "include/Trie.hh Trie"]}
{"id": "C99", "title": "Public functions can be linked", "statement": "The library exports every function that an installed header declares public and does not define; the installed headers include only installed headers and define the classes they name.", "quantifier": "all public functions; for the classes listed as a whole, all members they may ever get; all names for what the script does", "why_tests_cant": "The tests are linked against the functions they happen to use, with headers that are not installed.", "anchors": ["src/libcolumbus.map", "include/CMakeLists.txt install", "include/ColumbusHelpers.hh split, isWhitespace", "include/columbus.h"]}
{"id": "C100", "title": "Errors count characters", "statement": "With default settings the error of a match is 100 times the least number of characters (code points) to insert, delete, replace or swap, whatever the characters.", "quantifier": "all dictionaries of well-formed words, all well-formed queries and limits", "why_tests_cant": "The tests use letters of the Basic Multilingual Plane only, and the number of letters per character is the same there.", "anchors": ["src/LevenshteinIndex.cc findWords, searchRecursive, findOptimalError", "src/ColumbusHelpers.cc utf8ToInternal", "include/ColumbusCore.hh.in Letter"]}
{"id": "C101", "title": "Indexing survives refused memory", "statement": "If a call of index ends with bad_alloc, the matcher can be used on: searches return and list exactly the documents of what was indexed before the exception, and the corpus can be indexed again.", "quantifier": "all reachable matchers, all sequences of calls of index on all corpora, all patterns of granted and refused requests", "why_tests_cant": "The tests never run out of memory, and which request is refused matters.", "anchors": ["src/Matcher.cc buildIndexes, addToIndex, ReverseIndex::add", "src/WordStore.cc getID", "src/LevenshteinIndex.cc insertWord, findWords", "src/MatcherStatistics.cc wordProcessed"]}
{"id": "C102", "title": "The scalability test runs on any list of words", "statement": "LevScalabilityTest ends with code 0 for every word list and every number of queries: it indexes the words, searches for as many of them as asked for with the default errors and once more with the standard errors.", "quantifier": "all files, all arguments, all environments and data files, all patterns of refused storage", "why_tests_cant": "It is itself a test program and is run on one word list only.", "anchors": ["test/LevScalabilityTest.cc readData, runQueries, runTest, runtest, main"]}
{"id": "C103", "title": "The program that measures index building indexes the lines asked for", "statement": "CreatePerformanceTest makes a document of each of the first n lines of the file that are not empty, or of all of them if no number is given, numbered from 1, indexes their words under the field name, prints their number and ends with code 0; later lines do not matter.", "quantifier": "all files, all arguments, all patterns of refused storage", "why_tests_cant": "It is itself a measuring program; it is run on one file and prints only a number and a time.", "anchors": ["test/CreatePerformanceTest.cc build_matcher, main"]}
{"id": "C104", "title": "Errors add up", "statement": "If a search for x finds a word y with error e, and a search for y finds a word z with error f, then a search for x with a limit of e + f finds z with an error of at most e + f.", "quantifier": "all indexes built by any inserts, all words of up to 10 million letters, all limits, default error values", "why_tests_cant": "It relates three searches in an arbitrary index; the tests compare single searches with fixed answers.", "anchors": ["src/LevenshteinIndex.cc findWords, searchRecursive", "src/ErrorValues.cc"]}
{"id": "C105", "title": "onlineMatch lists exact texts first", "statement": "onlineMatch(query, field) lists a document whose text in the field is the query before every document whose text in the field is another one.", "quantifier": "all matchers reached by any calls, all queries, fields, weights and roundings of double arithmetic", "why_tests_cant": "The bonus of 100 competes with sums of relevancies over arbitrarily many words and weights; tests have a few documents with default weights.", "anchors": ["src/Matcher.cc onlineMatch, countExacts, match"]}
{"id": "C106", "title": "Errors are Damerau-Levenshtein distances", "statement": "With default settings the error of a match is 100 times the Damerau-Levenshtein distance of query and word: the least number of letters to insert, delete, replace or swap with the next one, one after the other.", "quantifier": "all indexes built by any inserts, all words of up to 10 million letters, all limits", "why_tests_cant": "hacking.txt states it; it fails only for words where a letter is changed twice, as by an insertion between swapped letters.", "anchors": ["hacking.txt", "src/LevenshteinIndex.cc findWords, searchRecursive", "src/ErrorMatrix.cc"]}
{"id": "C107", "title": "Indexing the same again changes nothing", "statement": "Indexing documents whose texts are indexed already does not change the answer to any search.", "quantifier": "all matchers reached by any calls, all corpora of which every word is indexed already, all queries and parameters", "why_tests_cant": "No test indexes a corpus twice; that the same documents are listed must hold for every query and filter.", "anchors": ["src/Matcher.cc index, buildIndexes, addToIndex, calculateRelevancy, relevancyMatch", "src/LevenshteinIndex.cc insertWord", "src/MatcherStatistics.cc"]}
{"id": "C108", "title": "A typing error is forgiven", "statement": "With default settings, a search for text lists every document that has a word which, up to case, is typed in the query with at most one character missing, added or wrong, or two neighbouring characters swapped.", "quantifier": "all matchers reached by any calls, all indexed texts and all query texts, unfiltered parameters", "why_tests_cant": "Tests try a few misspellings of ASCII words; characters take one to four bytes and one or two letters, and the limit depends on the length of the query word.", "anchors": ["src/Matcher.cc match, relevancyMatch, matchIndexes", "src/SearchParameters.cc getDynamicError", "src/ColumbusHelpers.cc splitToWords, utf8ToInternal", "src/LevenshteinIndex.cc findWords"]}
{"id": "C109", "title": "Documents with other fields do not interfere", "statement": "Indexing documents that have no field in common with those indexed before does not change what a search lists of the earlier documents: the same ones, in the same order, with the same relevancies.", "quantifier": "all matchers reached by any calls, all corpora apart from what is indexed, all queries, parameters, weights, filters and roundings of double arithmetic", "why_tests_cant": "Relevancies depend on counts kept by hash maps and on identifiers given out by the shared word store; tests have one set of fields.", "anchors": ["src/Matcher.cc index, addToIndex, calculateRelevancy, match", "src/MatcherStatistics.cc", "src/WordStore.cc getID"]}
{"id": "C110", "title": "Letters, field names and identifiers are only compared", "statement": "With default errors, writing all indexed words and the query with other letters, different ones for different ones, and giving fields and documents other names and identifiers does not change the answer: the same words are found with the same errors, and the same documents are listed with the same relevancies up to rounding.", "quantifier": "all injective maps of letters, fields and identifiers, all indexes, all matchers reached by any calls, all queries and unfiltered parameters", "why_tests_cant": "It relates two arbitrary dictionaries; letters below 512 have their errors in a table and all others in a map, and tests use few alphabets.", "anchors": ["src/ErrorValues.cc getSubstituteError, calculateLUT", "src/LevenshteinIndex.cc findWords, searchRecursive", "src/Matcher.cc match"]}
{"id": "C111", "title": "A mistake costs the same wherever it is in the word", "statement": "With default errors, putting the same letters in front of and behind the query and all indexed words, or reading the query and all indexed words backwards, changes neither the words that are found nor their errors.", "quantifier": "all indexes of non-empty words, all beginnings and ends, all queries without NUL, all maximal errors", "why_tests_cant": "The search walks the words from the left and cuts branches off by the smallest error of a row; that nothing depends on where the difference lies is a fact about all words.", "anchors": ["src/LevenshteinIndex.cc findWords, searchRecursive, findOptimalError"]}
{"id": "C112", "title": "Only the proportion of the weights matters to match", "statement": "If the weights of all indexed fields are multiplied by the same power of two, match lists the same documents in the same order, with relevancies multiplied by exactly this power, unless weights are as small as 2^-967. With any other factor that is not negative the same documents are listed and the relevancies are multiplied by it up to the rounding bound of C73.", "quantifier": "all reachable matchers, all weights, factors, queries and parameters; IEEE double arithmetic", "why_tests_cant": "It is about all sums of rounded products; a computation that is not homogeneous in the weights, or sums in another order, differs only in the last bits.", "anchors": ["src/Matcher.cc calculateRelevancy, gatherMatchedDocuments", "src/IndexWeights.cc"]}
{"id": "C113", "title": "A query finds what its words find", "statement": "Without a filter, match with the words of two queries put together lists exactly the documents that match lists for one of the two. Without negative weights the relevancy of such a document is at least its relevancy for either query and at most the sum of the two, a query that does not list it counting 0, up to the rounding bound of C73.", "quantifier": "all reachable matchers, all queries and parameters without filter; IEEE double arithmetic for the relevancies", "why_tests_cant": "It is about all pairs of queries, including words of both that are close to the same indexed word; counting such a word twice or only for the last query word shows only for some of them.", "anchors": ["src/Matcher.cc match, matchIndexes, addMatches, gatherMatchedDocuments"]}
{"id": "C114", "title": "Order does not matter to onlineMatch", "statement": "onlineMatch has the same outcome whatever the order of the query words. Two matchers that indexed the same texts in different orders list the same documents in onlineMatch, with the same part for exact words and relevancies that differ at most by rounding.", "quantifier": "all reachable matchers, all orders of indexing, all queries and indexed fields; IEEE double arithmetic for the bound", "why_tests_cant": "It is about all orders; the recorded text lengths are overwritten by later texts of the same document and field, which shows only for documents indexed more than once.", "anchors": ["src/Matcher.cc onlineMatch, countExacts, buildIndexes"]}
{"id": "C115", "title": "Unrelated texts do not lower relevancies", "statement": "Indexing texts none of whose words, in the fields that are searched, is within the limit of a query word loses no document of that search and, without negative weights, lowers no relevancy; without a filter it adds no document. This holds of the rounded relevancies.", "quantifier": "all reachable matchers, all corpora, all queries, parameters, filters and weights that are not negative, all monotone roundings", "why_tests_cant": "Relevancies depend on how often the most frequent word of a field was indexed, by texts of any number; that they grow and never fall for a query is a statement about all of them.", "anchors": ["src/Matcher.cc calculateRelevancy, buildIndexes, addToIndex", "src/LevenshteinIndex.cc wordCount, maxCount"]}
{"id": "C116", "title": "Searching survives refused memory", "statement": "A call of match that ends with bad_alloc does not change what later searches find: match and onlineMatch have the same results as without it, and so they have after further indexing.", "quantifier": "all reachable matchers, all queries and filters, all patterns of granted and refused requests", "why_tests_cant": "The tests never run out of memory, and which request is refused matters: filters add words to the store of the matcher.", "anchors": ["src/Matcher.cc match, subtermsMatch", "src/WordStore.cc getID", "src/MatchResults.cc copyResult"]}
{"id": "C117", "title": "Filters put together", "statement": "The order and repetition of terms and of pairs within terms does not matter; more pairs only remove results and more terms only add some; the terms of two filters together give the results of either, each term of one joined to each of the other the results of both; a filter with an empty term passes everything. Relevancies are the same throughout.", "quantifier": "all reachable matchers, all queries and parameters, all filters of words that can be built", "why_tests_cant": "The one test of filters has two terms; the laws are about all filters and all indexed texts, and a filter adds its words to the store of the matcher.", "anchors": ["src/Matcher.cc match, subtermsMatch", "src/ResultFilter.cc"]}
{"id": "C118", "title": "Parts of words find documents in substring mode", "statement": "In substring mode a search lists each document with a word that contains a query word of three letters or more, or begins with a query word; so a document that is found by the beginning of a word is found while the rest is typed.", "quantifier": "all reachable matchers in substring mode, all queries, all indexed words", "why_tests_cant": "The tests search for parts of a few short words; the limit on the price is met only by words much longer than the query.", "anchors": ["src/ErrorValues.cc setSubstringMode", "include/ErrorValues.hh getStartInsertionError, getEndDeletionError", "src/LevenshteinIndex.cc searchRecursive", "src/Matcher.cc match, matchIndexes"]}
{"id": "C119", "title": "A word that becomes more common counts less", "statement": "When further documents made of one word are indexed, no document that was found for a query before gets a higher relevancy for it than it had, without negative weights, if that word is within the limit of the query.", "quantifier": "all reachable matchers, all corpora of documents made of one word, all queries, parameters, filters and weights that are not negative, all monotone roundings", "why_tests_cant": "A word is compared with the most frequent word of its field, which may be the word itself or another, before and after any number of further texts.", "anchors": ["src/Matcher.cc calculateRelevancy, addToIndex", "src/LevenshteinIndex.cc wordCount, maxCount"]}
{"id": "C120", "title": "Cheaper mistakes find more", "statement": "Without negative weights and prices, and with settings of which no price is higher than before, a search lists every document that it listed before, with no lower relevancy in double arithmetic. In particular no combination of preset operations (accents, keyboard neighbours, number pad, standard errors, substring mode) loses a document or lowers a relevancy in comparison with the settings of a new matcher.", "quantifier": "all reachable matchers, all settings reached by any calls, all queries, parameters, filters and weights that are not negative, all monotone roundings", "why_tests_cant": "A search gives up on parts of the index by the prices of partial words; that lower prices never make it give up earlier is a statement about all words and all settings.", "anchors": ["src/ErrorValues.cc setError, setSubstringMode, addStandardErrors", "src/LevenshteinIndex.cc searchRecursive", "src/Matcher.cc match, calculateRelevancy"]}
{"id": "C121", "title": "Further words in onlineMatch", "statement": "When further words are added to a query, onlineMatch lists every document that it listed before and, without negative weights and prices, with no lower score. The same holds when the query stays and the settings change so that no price is higher.", "quantifier": "all reachable matchers, all pairs of queries of which one has the words of the other and more, all fields, all settings reached by any calls, all weights that are not negative, all monotone roundings", "why_tests_cant": "The score has three parts, one of which depends on the number of words of the query and of the text; all queries, texts and settings.", "anchors": ["src/Matcher.cc onlineMatch", "src/Matcher.cc match"]}
{"id": "C122", "title": "Documents with the same texts", "statement": "Two documents with the same words in the same fields are found by the same searches, whatever the filter, with the same relevancy. The one with the lower identifier is listed first, and whatever is listed between them has that relevancy too and an identifier between theirs. In onlineMatch they have the same score if their texts in the field have the same number of words.", "quantifier": "all reachable matchers, all pairs of documents with the same words, all queries, parameters, filters and weights, all settings without negative prices, all roundings", "why_tests_cant": "Relevancies are sums of rounded numbers, and which ones are added in which order depends on the identifiers of words; all documents and queries.", "anchors": ["src/Matcher.cc match", "src/Matcher.cc onlineMatch", "src/MatchResults.cc"]}
{"id": "C123", "title": "Weight zero and excluded fields", "statement": "If a field has weight 0, excluding it from a search removes only documents with relevancy 0; all other documents stay, in the same order and with exactly the same relevancy in double arithmetic.", "quantifier": "all reachable matchers in which the field has weight 0, all queries, parameters, filters and other weights, all settings without negative prices, all roundings", "why_tests_cant": "Excluding a field leaves out terms of sums of rounded numbers anywhere in the order; all documents, queries and weights.", "anchors": ["src/Matcher.cc match, matchIndexes, calculateRelevancy", "src/SearchParameters.cc", "src/IndexWeights.cc"]}
{"id": "C124", "title": "Raising a weight favours the field", "statement": "When the weight of a field is raised, a document with no word within the limit of the query in that field keeps its relevancy, and it does not overtake any other document: what was listed before it still is.", "quantifier": "all reachable matchers, all queries, parameters, filters, weights and higher weights, all settings without negative prices for which searches are complete, all monotone roundings", "why_tests_cant": "Ranks depend on sums of rounded numbers and on ties; all documents, queries and weights.", "anchors": ["src/Matcher.cc match, calculateRelevancy", "src/IndexWeights.cc", "src/MatchResults.cc"]}
{"id": "C125", "title": "Documents with other fields do not interfere with onlineMatch", "statement": "Indexing documents that have no field in common with those indexed before does not change what onlineMatch lists of the earlier documents for one of their fields: the same ones, in the same order, with the same scores.", "quantifier": "all reachable matchers, all corpora with other fields and documents, all queries, all settings without negative prices for which searches are complete, all weights and roundings", "why_tests_cant": "Scores are sums of rounded numbers, with counts of words and sizes of texts in them; all texts indexed before and after.", "anchors": ["src/Matcher.cc onlineMatch", "src/Matcher.cc index"]}
{"id": "C126", "title": "onlineMatch survives refused memory", "statement": "A call of onlineMatch that ends with bad_alloc leaves the matcher exactly as it was, and so does any number of such calls. Unless it ends that way it does what it does with memory to spare.", "quantifier": "all reachable matchers, all queries of usable words, all usable field names, all patterns of granted and refused requests", "why_tests_cant": "The tests never run out of memory. The call goes through functions that add to the store and to the sizes, getID and operator[]; that they find everything there depends on all that was indexed.", "anchors": ["src/Matcher.cc onlineMatch, countExacts, match", "src/WordStore.cc getID"]}
