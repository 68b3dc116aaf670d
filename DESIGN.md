# Formal model of libcolumbus

Lean 4.33.0 model of the library in `/repo` (default configuration: UTF-16 letters, 64-bit little-endian machine) and
proofs of the properties in `properties.jsonl`. Everything is under `lean/Verif`:

| directory | contents |
|---|---|
| `Model/` | the code, function by function, each definition citing file and lines |
| `Spec/`  | specifications that do not mention the model's helpers: UTF-8 strings, edit scripts, histories |
| `Proofs/`| lemmas: invariants, refinement, frame lemmas |
| `Props/` | one theorem (or a few) per property, each with a concrete non-trivial instance beside it |

## How the code is modelled

* A call that can fail has type `M α = Except Fault α`. `Fault` separates the three C++ exceptions the library throws from
  a failed `assert`, undefined behaviour (`ub`: out-of-bounds or null access, uninitialised read, signed overflow), an
  unbounded loop (`fuel`) and a non-finite double (`nonFinite`). Calls that change an object and then throw return the object as
  well (`index`, `match`, `setGroupError`, `Word::operator=`). After a refusal of memory the trie is kept with an empty mapping.
* `class Build` says whether assertions are compiled in. Theorems are for both values.
* Unspecified behaviour is a parameter (`class Runtime`): iteration order of hash containers, tie order of `std::sort`,
  evaluation order of function arguments.
* Doubles are rational numbers with a rounding function (`class Fp`): monotone, idempotent, exact on `n/2^k` with
  `|n| ≤ 2^53`, `k ≤ 1074`. Proved of rounding to the nearest double (`ieee`, C73_nearest), whose exponent is not bounded
  above; C73_accuracy shows that sums of contributions do not come near the bound.
* ICU's `u_tolower` is a parameter with laws (`class Icu`): idempotent, fixes surrogates, keeps non-surrogates
  non-surrogate, fixes everything below `A` and maps nothing else there. `Proofs/Unicode.lean` has the mapping of Unicode 14.0
  and proves the laws of it.
* iconv is modelled concretely as a strict UTF-8/UTF-16LE codec (`Model/Utf.lean`).
* The trie is modelled at byte level: a memory, the mapped size, 32-bit little-endian fields at the offsets of the C
  structs. Reads and writes outside the mapping are `ub`. `os n` says whether the system grants a file of `n` bytes;
  C86_agrees relates this to separate answers to each system call.
* Objects are values everywhere except in `Model/Objects.lean`, which has pointers, the private parts behind them, and
  requests for memory that can be refused. C65–C68 relate the two.
* The search matrix has optional cells, so reading an unwritten cell is `ub`; `int` additions are checked.

## Trusted base

* Lean's kernel. Axioms: at most `propext`, `Classical.choice`, `Quot.sound` (checked with `#print axioms`).
* The reading of C++ in `Model/`: the definitions were transcribed by hand; nothing connects them mechanically to the
  source. As evidence for it, `Props/Suite.lean` runs the project's own unit tests (64 test functions of test/*.cc and
  test/CAPITest.c) on the model; all pass. `Props/PySuite.lean` runs test/pythontest.py on the model of the Python module;
  all pass but `test_values`, which hands the module letters and is refused (C93). They are not counted as proofs of
  anything.
* The assumptions in `Icu`, `Fp`, `Runtime` and the iconv codec, as above.
* Standard containers behave as lists in key order (`std::map`, `std::set`), as lists (`vector`) or as finite maps (hash
  containers). `List.mergeSort` stands for `std::stable_sort`.

Not modelled: the `full_unicode` build except for words (C87); what Boost.Python does (stated at the top of
`Model/PyModule.lean`); the tools except for `queryindex`, `singleword` and the searches of the graphical ones; the
performance tests; the text and the timings of debug messages; allocation failure outside the trie, `Word`, `index` and `match` (C101, C116); `tmpfile`
and `munmap` failure except in C86, C94 and C97; running out of stack in deep recursions; text longer than 4 GiB; `memcpy(p, nullptr, 0)`; `delete[]`
of a `char` array allocated as letters; threads (the library has none).

## Properties

Status: P = proved as stated. F = false of the code: the negation is proved with a witness (`Cnn_false`) and a `_partial`
theorem states what does hold. Names and notes per property are in `MANIFEST.json`.

| id | | model and proof |
|---|---|---|
| C01 | P | `Word.ofUtf8`; spec: strings that are concatenations of encoded scalar values. Decoder characterised by induction; encoded text never has broken surrogates. |
| C02 | P | `Word.asUtf8`; decode∘encode on UTF-16 and UTF-8, induction over the text. |
| C03 | P | From the value of `Word.ofUtf8` and idempotence of lower-casing. |
| C04 | P | No `ub` result of `utf8ToInternal`, `asUtf8`: length bounds of the codecs. |
| C05 | F | `toUtf8` writes the terminator at `buf[bufSize]` when the text fills the buffer. |
| C06 | F | A trailing high surrogate is accepted, high-high asserts or is accepted. The outcome for every array by induction. |
| C07 | P | Induction on lists. |
| C08 | F | A failed assignment leaves a null text with a non-zero length. |
| C09 | F | Lists; decoder over append. The text of a word ends at a NUL letter. |
| C10 | P | Loop invariant: index below 256. |
| C11 | P | Spec: a recursive tokenizer over characters; refinement of the byte loop. |
| C12, C13, C16 | P | Byte-level trie invariant: a ghost forest is represented in memory; `insertWord`/`findWord` refine insertion/look-up of a finite map; every run gives a result or `runtimeError`. |
| C14, C15, C17 | F | The same for NUL-free words. A NUL letter leads from any node to offset 0, so the header is read as a node; `Proofs/NulWords.lean` follows that, and `Props/NulWords.lean` says what such words do. |
| C18 | P | Refinement to the list of insertions. |
| C19 | P | Spec: inductive relation of edit scripts with cost. Matrix rows are minima of script costs; induction over the forest. For equal insertion and deletion costs; different ones never get through (C28). |
| C20 | F | Swaps cheaper than skipping a letter are cut off by the pruning. |
| C21–C27 | P | From C19/C20, the set of visited nodes, bounds on all cells and explicit scripts. |
| C28 | F | Assertion for different costs; release builds charge leading letters at the deletion cost. |
| C29, C31, C33, C35 | P | Invariant over all histories of `ErrorValues` operations. |
| C30, C32, C34 | F | Self-substitution costs; groups over individually set pairs; letters grouped before a failure. |
| C36, C37 | P | C36 for all data files with disjoint groups; C37: symbolic evaluation of the loops as lists of `setError` calls, from any state. |
| C38 | F | The first row and column are never a left or upper neighbour. |
| C39, C41–C43 | P | Stable sort and ordered-map lemmas; the lazily sorted list is simulated by its history. |
| C40 | F | `copyResult` reads the unsorted list. |
| C44–C47, C49–C51, C53, C57–C59 | P | Matcher invariant against the history of (document, field, word) events; `match` as a function of the history. |
| C48 | F | The same for one call; induction over programs of calls. The evaluation order of two arguments decides the identifiers of filter words and with them a rounding. |
| C52, C54 | F | Filters make their words known; the check in `onlineMatch` is for a known word, not for a known field. |
| C55, C56 | F | Self-substitution costs; repeated query words count twice for the bonus. |
| C60 | F | Interruption by an empty word is harmless at every position; after a refusal of memory a trie has no mapping and searches read it. |
| C61 | F | All functions but `col_match_results_get_relevancy` mirror the C++ calls; no exception escapes any function; every valid call of every C program returns. |
| C62 | F | The document identifier is returned. |
| C63, C64 | P | From the matcher invariant, the counts being part of it. |
| C65, C66 | F | Refinement of programs over pointers to programs over values, with the list of lost arrays as a ghost. Refused copy assignment, blanks (C08) and ill-formed text are the exceptions. |
| C67 | P | The same refinement for any class with a private part. |
| C68 | F | The implicit copy shares the private part. |
| C69 | P | Lists. |
| C70 | F | Frame lemmas: a search adds its matches to the container and ignores what it holds. `getQuery` has nothing to give. |
| C71 | F | `findDataFile` over an environment and a file system; an empty variable makes it read before the text. |
| C72 | F | The refinement of C11 for any separators. Separators are compared with sign-extended bytes, so only ASCII ones work. |
| C73 | P | Rounding to nearest defined on rational numbers; error analysis of a contribution and of the sum. |
| C74 | P | Answers depend on the history only through postings and counts, which a permutation keeps; C73 for the relevancies. |
| C75 | P | Hits are monotone; so are least errors, contributions and rounded sums. |
| C76 | F | The text is not lower-cased before it is compared. |
| C77 | F | The hash as an exclusive or of one part per letter. Most of the table is zero. |
| C78 | F | A vector with capacity and place, items as references into it. |
| C79 | P | The sequence of `set` calls as the history of a map. |
| C80 | P | Frame lemmas for the calls that set substitution costs. |
| C81 | F | The loop over lines refines insertion of a list of words; C19 and C26 give the matches. Unterminated last lines, long lines and long texts fail. |
| C82 | F | A loop invariant: what is indexed and what waits in the corpus are the lines read so far; C44, C46 and C60 give the answers. Lines of one character and carriage returns fail. Text after a NUL is not used. |
| C83 | F | As C82, for documents with several fields; C36 for the data files, C43 for the weights. |
| C84 | F | As C83; the lines of a desktop file by induction with the last value of each key as invariant, C76 for the comparison of keys. |
| C85 | F | All lines are read before the first is inserted (induction over lines); the answers as for C81; rows are printed up to the first text that does not fit. |
| C86 | F | `Model/Resources.lean`: the trie again, with a separate answer to each system call and objects kept after exceptions. Resources by an invariant of each call; agreement with `Model/Trie.lean` by simulation under the header invariant. |
| C87 | F | `Model/Wide.lean`: the word functions with 32-bit letters. The surrogate tests of this build are constantly false, so letter arrays are not checked. |
| C88, C89 | F, T | `Model/Messages.lean`: the functions that print, in the build with `debug_messages`, with messages as values. Printing converts words to UTF-8, which throws for words that are not well-formed; the call has done its work by then. |
| C90 | F | `Model/ExactMatch.lean`: the command that numberpad gives to the shell. What sh and grep do with it is specified for single quotes, blanks, `;`, plain characters; and anchored expressions of characters, bracket lists, `.` and `*`. Wrong for the star key, quotes and file names with blanks. |
| C91 | P | `Spec/CTexts.lean`: what a C program knows of its objects in terms of the texts it passed, which calls that allows, and what each returns. The theorems follow a program call by call (`Trace`, `Explains`). |
| C92 | P | `Model/Visits.lean`: the search with a record of the nodes it looks at, shown to be the same search; the inductions of C21 and C19 for the record, and a lower bound for the price of long words. |
| C93 | P | `Model/PyModule.lean`: all methods of the Python module on shared objects, with references to texts of documents, to items and to parts of matchers. The rules of `Spec/PyModule.lean` and the proof follow those of C91. |
| C94 | P | `Model/MatcherLife.lean`: the tries of a matcher with the resources of `Model/Resources.lean`. The file of a trie is snug (half full, or 1024 bytes), as part of the invariant of the trie, and its nodes are the prefixes. |
| C95 | P | Edit scripts under even prices can be swapped, joined and reversed; carried to searches by C19 and C20. |
| C96 | P | Sums of non-negative doubles grow with their terms (C47, C46); contributions fall with error and count. |
| C97 | F | Invariant of trees with gaps: a refused `munmap` inside `addNewNode` leaves unlinked bytes and a node counted too much, never a broken path. False for refused `ftruncate`/`mmap`. |
| C98 | P | The ghost tree of C12 with its children in order of creation; their letters are the continuations of the words inserted, by induction over the insertions. |
| C99 | F | `Model/Exports.lean`: the version script and the declarations as tables; the matching of patterns by induction, the tables by computation. |
| C100 | F | Edits of letters are turned into edits of characters by induction over the script, with the case that either text ends in half a character; the other direction replaces each edit of a character by at most four. C26 gives the errors. |
| C101 | F | `Model/Heap.lean`: `index` with a heap that grants or refuses each request. Invariant of a matcher whose words counted (`C`) and documents noted (`D`) may differ; the search is that of C44, which needs `D` only for the documents. |
| C102 | F | `Model/Scalability.lean`: the program with `fgets` of 1024 bytes, the build as a parameter. Words of the file by induction over its lines; searches by C02 and C03. |
| C103 | F | `Model/CreatePerformance.lean`. Induction over the lines with the number of documents still to be made; index as in C60. |
| C104 | F | `Proofs/Triangle.lean`. Induction over the second run of edits, each changing the first run by at most two; searches by C25 and C26. |
| C105 | F | `Props/First.lean`. Scores by C56, bounded by integers, which rounding keeps in order; relevancies by C47. |
| C106 | F | `Spec/Damerau.lean`. Edits are changes by induction; a change after some edits takes two more edits at most (C104). |
| C107 | F | `Props/Again.lean`. The answer depends on postings and counts (C44, C47); identifiers stay, counts double. |
| C108 | F | `Spec/Typo.lean`. A typing error in letters is at most two edits but for wide swaps; words of a text by C11, the rest is C44. |
| C109 | P | `Props/Apart.lean`. Postings, counts and identifiers of what was indexed before stay (C47); both lists are in rank order (C46). |
| C110 | P | `Props/Renamed.lean`. Edits under an injective map of letters and its inverse; searches by C26, documents by C44, relevancies by C73. |
| C111 | P | `Props/Position.lean`. Common last letters removed by cases on the last edit, common first letters by reversal; searches by C26. |
| C112 | P | `Props/Scale.lean`, `Proofs/Scale.lean`. Rounding commutes with powers of two in the normal range; sums by C47 in the same order, the list by C46; other factors by C73. |
| C113 | P | `Props/Union.lean`, `Proofs/Union.lean`. Documents by C44; at least by C75; at most because each indexed word close to the joint query is close, with the same least error, to a part (C73). |
| C114 | F | `Props/OnlineOrder.lean`. Scores are a function of `match`'s results, exact words and recorded lengths (C56); the results by C49, C74. |
| C115 | P | `Props/Unrelated.lean`, `Proofs/Unrelated.lean`. The same terms in the same order (C47, identifiers stay); each grows as counts stay and the greatest count of the field can only rise. |
| C116 | F | `Model/HeapSearch.lean`: `match` with a heap that grants or refuses each request. Simulation of the loops of the filter; the store they leave is that of a filter cut short, as in C52. |
| C117 | P | `Props/Filters.lean`. Searches that differ in the filter show parts of one list (C45). |
| C118 | F | `Props/SubstringSearch.lean`. The price from below by the depth bound of C92, from above by C27; then C44, C63. |
| C119 | F | `Props/Common.lean`, `Proofs/Common.lean`. The same terms in the same order (`relevancy_after`, shared with C115); the share of the word in the greatest count does not fall, and the rounding is monotone. The counterexample from C47 and IEEE rounding. |
| C120 | P | `Props/Cheaper.lean`, `Proofs/Cheaper.lean`. Each script has a price that is no higher, so rows of the matrix are no higher and less is given up; then the terms of each relevancy as in C75 (`answer_closer`). |
| C121 | F | `Props/OnlineMore.lean`, `Proofs/OnlineMore.lean`. The parts of the score (C56) do not fall: exact words are counted, the rest as in C75 and C120. The counterexample from C47, C56 and IEEE rounding. |
| C122 | P | `Props/Twins.lean`, `Proofs/Twins.lean`. The documents are added to by the same pairs of field and word (`answer_twins`), in the same order; order by C46. |
| C123 | P | `Props/Twins.lean`, `Proofs/Twins.lean`. The pairs of the excluded field add 0, and adding 0 to a double is exact (`foldl_zeros`, `answer_zero`). |
| C124 | P | `Props/Favour.lean`, `Proofs/Twins.lean`. The relevancy of the document is the same sum (`answer_weights`), the other one is no lower (C50), ties by C46. |
| C125 | P | `Props/OnlineApart.lean`. From C109 and the scores of C56: a score depends on the relevancy and on texts of that field only (`scores_restricted`). |
| C126 | P | `Model/HeapOnline.lean`: `onlineMatch` with a heap that grants or refuses each request. `getID` is only asked for words of the store and `operator[]` only for sizes that are there, by the invariant of the matcher; the default filter asks for no identifiers. |

## Findings in the code

Beyond the properties marked F, the model shows the following.

* `ResultFilter` starts with one empty term, so a filter to which terms are added with `addNewTerm` before any sub-term
  still accepts everything.
* In Python, the words of a text taken with `Document.get_text` dangle in the same way as those of a list (C78).
* In Python, `set_error` and `get_substitute_error` cannot be called: `Letter` is a class without a converter, so the module
  refuses every argument (C93; test/pythontest.py calls both). `Document.get_text` gives the text of the document itself,
  though it is `const` in C++: a program can add words to it, also an empty one, and then `index` throws.
* `addResults` of an object with itself gives `insert` a range of the same vector (C93).
* `split` loses its buffer when a word is ill-formed: only `invalid_argument` is caught.
* A query word with a NUL letter can be compared against the zero letter of the record of the root and read row -1 of the
  matrix.
* The latin accent group of "y" has no plain "y"; some lines of the shipped file contain combining characters.
* After a failed `expand` the trie object keeps a pointer to memory that is no longer mapped; the destructor of a trie
  never unmaps, and its constructor loses the file and the private part when the first `expand` fails.
  Only a refused `munmap` leaves a trie that can be used (C97); `insertWord` may then leave a node that is counted but not linked.
* `addToIndex` loses a new field index if its place in the map is refused (C101).
* `LevScalabilityTest` reads `queries` words whatever the number of words is, and takes each line without its last byte (C102).
* `CreatePerformanceTest` reads one line if it is asked for none (C103).
* Errors do not add up: "ca" to "ac" and "ac" to "abc" cost 100 each, "ca" to "abc" 300 (C104).
* The bonus of `onlineMatch` for an exact text is a fixed number: documents with many or heavy similar words still come first
  (C105).
* hacking.txt speaks of the Damerau-Levenshtein distance; the code computes the one in which no letter is edited twice (C106).
* Indexing a corpus twice lowers relevancies, as the words are counted twice (C107).
* Two emoji in the wrong order can be four edits, and are then not found (C108).
* A document indexed again with a text of another length keeps all its words, but only the last length; whether `onlineMatch` gives
  the bonus then depends on the order of indexing (C114).
* If a search is refused the memory of the identifier of a filter word, the next new word that is indexed gets this identifier; the
  filter then lets documents with the other word pass (C116).
* In substring mode the limit of 200 pays for 13 letters outside the part: a document with a word of 17 letters is not found by the
  first three of them (C118).
* Indexing a word once more can raise the relevancy of a document for a query with that word: the other words of the query count for more
  when the most frequent word is even more frequent (C119).
* A document whose field equals what was typed loses 100 points in `onlineMatch` as soon as one more word is typed, also a word that is in
  no document (C121).
* `getSiblingTo` of a node without children takes the header of the file for a record (C98); no caller does that.
* The version script lists neither `split` nor `isWhitespace`, misspells `Word::length` and names five setters with `const int`,
  which no demangled name has; the last two are harmless as these functions are inline (C99). The headers of `SearchParameters` and
  `ResultFilter` are not installed.
* Word identifiers, and so the order in which relevancies are added up, depend on the evaluation order of function
  arguments and on earlier filters.
* Moving a `Word` to itself empties it. `asUtf8` loses its buffer when the text cannot be converted, and the copy
  constructors of `WordList` and `MatchResults` lose the private part when copying the contents runs out of memory.
* The graphical tools never remove the carriage return of a DOS line end: `getline` leaves it as the last character, and
  they look at the one before (C82).
* `doExactMatch` of numberpad puts the query and the file name into a shell command without escaping; a quote in the query
  ends the quoted part.
