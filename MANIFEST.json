{
 "claims": [
  {
   "property": "C01",
   "status": "proved",
   "theorems": [
    "Columbus.Props.C01_accepts",
    "Columbus.Props.C01_value",
    "Columbus.Props.C01_rejects",
    "Columbus.Props.C01_no_other_outcome"
   ],
   "note": "Exact acceptance condition, contents, kind of every rejection, both build types."
  },
  {
   "property": "C02",
   "status": "proved",
   "theorems": [
    "Columbus.Props.C02_round_trip",
    "Columbus.Props.C02_lower_text"
   ],
   "note": "For strings without NUL bytes (C strings)."
  },
  {
   "property": "C03",
   "status": "proved",
   "theorems": [
    "Columbus.Props.C03_case",
    "Columbus.Props.C03_lower"
   ],
   "note": "Equality of words is exactly equality of the lower-cased code points."
  },
  {
   "property": "C04",
   "status": "proved",
   "theorems": [
    "Columbus.Props.C04_in_bounds",
    "Columbus.Props.C04_asUtf8_total"
   ],
   "note": "All inputs, all letter sequences including ill-formed ones."
  },
  {
   "property": "C05",
   "status": "partial",
   "theorems": [
    "Columbus.Props.C05_false",
    "Columbus.Props.C05_partial",
    "Columbus.Props.C05_ill_formed"
   ],
   "note": "False as stated: C05_false gives the one-byte overrun. C05_partial gives the exact outcome for every buffer size."
  },
  {
   "property": "C06",
   "status": "partial",
   "theorems": [
    "Columbus.Props.C06_false_accepts",
    "Columbus.Props.C06_false_assertion",
    "Columbus.Props.C06_false_empty",
    "Columbus.Props.C06_partial",
    "Columbus.Props.C06_well_formed",
    "Columbus.Props.C06_blank",
    "Columbus.Props.C06_release_partial",
    "Columbus.Props.C06_debug_partial"
   ],
   "note": "False as stated: C06_false_* give witnesses. C06_release_partial and C06_debug_partial give the outcome for every array without blanks, C06_blank for those with; C06_partial, C06_well_formed: when it is as claimed."
  },
  {
   "property": "C07",
   "status": "proved",
   "theorems": [
    "Columbus.Props.C07_strict_total_order",
    "Columbus.Props.C07_lexicographic"
   ],
   "note": "Strict total order, agreement with ==, lexicographic characterisation."
  },
  {
   "property": "C08",
   "status": "partial",
   "theorems": [
    "Columbus.Props.C08_false",
    "Columbus.Props.C08_partial",
    "Columbus.Props.C08_constructed",
    "Columbus.Props.C08_copy_move"
   ],
   "note": "False as stated: C08_false. C08_partial gives the state after each outcome, including the failing one."
  },
  {
   "property": "C09",
   "status": "partial",
   "theorems": [
    "Columbus.Props.C09_join",
    "Columbus.Props.C09_false",
    "Columbus.Props.C09_text_partial",
    "Columbus.Props.C09_texts"
   ],
   "note": "False of words with NUL letters: the text of the join ends at the first of them (C09_false). C09_join: letters by position, whatever the words; C09_text_partial: all well-formed NUL-free words."
  },
  {
   "property": "C10",
   "status": "proved",
   "theorems": [
    "Columbus.Props.C10_hash",
    "Columbus.Props.C10_case"
   ],
   "note": "The hash is defined for all words and given in closed form."
  },
  {
   "property": "C11",
   "status": "proved",
   "theorems": [
    "Columbus.Props.C11_split",
    "Columbus.Props.C11_words",
    "Columbus.Props.C11_separators"
   ],
   "note": "Exact success condition, tokens given by an independent relation."
  },
  {
   "property": "C12",
   "status": "proved",
   "theorems": [
    "Columbus.Props.C12_constructed",
    "Columbus.Props.C12_injective_stable"
   ],
   "note": "All histories of getID calls over NUL-free words any constructor can make, empty ones included (their calls throw and change nothing), from a new store, whatever sizes the system grants. C12_constructed: words made from text are such words."
  },
  {
   "property": "C13",
   "status": "proved",
   "theorems": [
    "Columbus.Props.C13_dense_invertible"
   ],
   "note": "Identifiers are exactly the positions in the list of distinct words in order of first use."
  },
  {
   "property": "C14",
   "status": "partial",
   "theorems": [
    "Columbus.Props.C14_nul_partial",
    "Columbus.Props.C14_false",
    "Columbus.Props.C14_membership_partial"
   ],
   "note": "False of NUL letters: such a probe reads outside the mapping (C14_false). C14_membership_partial: exact for NUL-free probes after any history. C14_nul_partial: what a lookup of a word with NUL letters does, except when the letter after the NUL equals the number of words modulo 2^16."
  },
  {
   "property": "C15",
   "status": "partial",
   "theorems": [
    "Columbus.Props.C15_nul_partial",
    "Columbus.Props.C15_nul_debug",
    "Columbus.Props.C15_nul_inside",
    "Columbus.Props.C15_false",
    "Columbus.Props.C15_false_release",
    "Columbus.Props.C15_partial"
   ],
   "note": "False for words with NUL letters (C15_false, C15_false_release). C15_partial: every NUL-free word a constructor can make. C15_nul_partial: histories that mix in words ending in NUL, release build, in full. C15_nul_debug: the same words in a debug build. C15_nul_inside: letters after a NUL, both builds."
  },
  {
   "property": "C16",
   "status": "proved",
   "theorems": [
    "Columbus.Props.C16_safe",
    "Columbus.Props.C16_grows",
    "Columbus.Props.C16_reads"
   ],
   "note": "The only failure is runtime_error, and only when the system refuses a needed size or the data exceed 2 GiB. Mapping calls (mmap, mremap, ftruncate) are one oracle per size."
  },
  {
   "property": "C17",
   "status": "partial",
   "theorems": [
    "Columbus.Props.C17_false",
    "Columbus.Props.C17_membership_partial",
    "Columbus.Props.C17_build",
    "Columbus.Props.C17_nul_partial",
    "Columbus.Props.C17_nul_insert"
   ],
   "note": "False of NUL letters (C17_false). C17_membership_partial: every history the interface allows (IndexHistory.Ok), every NUL-free probe. C17_nul_partial, C17_nul_insert: what words with NUL letters do instead. C17_build: building fails only with runtime_error and only when storage is refused."
  },
  {
   "property": "C18",
   "status": "proved",
   "theorems": [
    "Columbus.Props.C18_wordCount",
    "Columbus.Props.C18_maxCount",
    "Columbus.Props.C18_numNodes",
    "Columbus.Props.C18_numWords"
   ],
   "note": "Counts, largest count, distinct words and distinct prefixes, against the list of insertions."
  },
  {
   "property": "C19",
   "status": "proved",
   "theorems": [
    "Columbus.Props.C19_true_errors"
   ],
   "note": "Least price over all edit scripts, for equal insertion and deletion costs (different ones are C28) and price sums that fit an int. Costs are those of any history of ErrorValues calls."
  },
  {
   "property": "C20",
   "status": "partial",
   "theorems": [
    "Columbus.Props.C20_false",
    "Columbus.Props.C20_partial",
    "Columbus.Props.C20_default",
    "Columbus.Props.C20_exact_partial"
   ],
   "note": "False: a swap cheaper than skipping a letter is pruned away (C20_false). C20_partial: nothing is missed if costs are not negative and a swap is not cheaper than skipping a letter of the word (or than any replacement). C20_default: nothing is missed with default or substring settings. C20_exact_partial: the exact answer for all prices whose sums fit an int."
  },
  {
   "property": "C21",
   "status": "proved",
   "theorems": [
    "Columbus.Props.C21_sorted_distinct"
   ],
   "note": "Any settings, any previous contents, no size condition."
  },
  {
   "property": "C22",
   "status": "proved",
   "theorems": [
    "Columbus.Props.C22_exact"
   ],
   "note": "Also for different insertion and deletion costs."
  },
  {
   "property": "C23",
   "status": "proved",
   "theorems": [
    "Columbus.Props.C23_monotone"
   ],
   "note": "Any cost settings whose sums fit an int."
  },
  {
   "property": "C24",
   "status": "proved",
   "theorems": [
    "Columbus.Props.C24_order"
   ],
   "note": "Equal sets of insertions give permuted results."
  },
  {
   "property": "C25",
   "status": "proved",
   "theorems": [
    "Columbus.Props.C25_no_fault",
    "Columbus.Props.C25_nul",
    "Columbus.Props.C25_default"
   ],
   "note": "Both build types; C25_default gives an explicit size bound for default and substring settings; C25_nul shows that the hypothesis on NUL letters is needed."
  },
  {
   "property": "C26",
   "status": "proved",
   "theorems": [
    "Columbus.Props.C26_distance",
    "Columbus.Props.C26_metric"
   ],
   "note": "The result is exactly the words within the limit, each with 100 times the least number of edits, where edits are counted by an independent relation."
  },
  {
   "property": "C27",
   "status": "proved",
   "theorems": [
    "Columbus.Props.C27_bound",
    "Columbus.Props.C27_found",
    "Columbus.Props.C27_short"
   ],
   "note": "C27_bound for any other settings; C27_found for default ones; C27_short for queries of one or two letters."
  },
  {
   "property": "C28",
   "status": "partial",
   "theorems": [
    "Columbus.Props.C28_false",
    "Columbus.Props.C28_partial"
   ],
   "note": "False: different values abort debug builds on every non-empty query, and release builds charge leading letters as deletions (C28_false). C28_partial: release builds report least prices under the prices really charged."
  },
  {
   "property": "C29",
   "status": "proved",
   "theorems": [
    "Columbus.Props.C29_symmetric"
   ],
   "note": "All histories of public calls, with caught exceptions, and any data files."
  },
  {
   "property": "C30",
   "status": "partial",
   "theorems": [
    "Columbus.Props.C30_false",
    "Columbus.Props.C30_partial"
   ],
   "note": "False: setError(a,a,e) makes the match itself cost e below the table limit (C30_false). C30_partial: holds unless such a call was made, and always above the limit."
  },
  {
   "property": "C31",
   "status": "proved",
   "theorems": [
    "Columbus.Props.C31_last_wins",
    "Columbus.Props.C31_others_keep"
   ],
   "note": "For different letters, below and above the table limit, whatever came before."
  },
  {
   "property": "C32",
   "status": "partial",
   "theorems": [
    "Columbus.Props.C32_false",
    "Columbus.Props.C32_partial"
   ],
   "note": "False: a group set over an individually set pair wins in the table and loses in the maps (C32_false). C32_partial: the two agree after every history without failed calls, non-zero self costs and groups over individual pairs."
  },
  {
   "property": "C33",
   "status": "proved",
   "theorems": [
    "Columbus.Props.C33_group_cost",
    "Columbus.Props.C33_others_keep"
   ],
   "note": "An individual error set before takes precedence above the table limit; below it does not matter."
  },
  {
   "property": "C34",
   "status": "partial",
   "theorems": [
    "Columbus.Props.C34_false",
    "Columbus.Props.C34_partial",
    "Columbus.Props.C34_refused_partial",
    "Columbus.Props.C34_members"
   ],
   "note": "The condition for the exception is exact. The state claim is false (C34_false): letters above the limit that precede the offending one stay grouped. C34_partial covers all the other pairs; C34_refused_partial gives the exact effect of a refused call."
  },
  {
   "property": "C35",
   "status": "proved",
   "theorems": [
    "Columbus.Props.C35_clear"
   ],
   "note": "From any reachable state."
  },
  {
   "property": "C36",
   "status": "proved",
   "theorems": [
    "Columbus.Props.C36_standard"
   ],
   "note": "Any data files whose groups are disjoint; the shipped files are checked to be such."
  },
  {
   "property": "C37",
   "status": "proved",
   "theorems": [
    "Columbus.Props.C37_keyboard"
   ],
   "note": "From any reachable state; the neighbours are given by the layout, independently of the loops. The bottom row has no horizontal neighbours."
  },
  {
   "property": "C38",
   "status": "partial",
   "theorems": [
    "Columbus.Props.C38_false",
    "Columbus.Props.C38_partial"
   ],
   "note": "False: the routine skips the neighbours in the first column and the first row (C38_false). C38_partial names exactly the pairs left out and proves the rest."
  },
  {
   "property": "C39",
   "status": "proved",
   "theorems": [
    "Columbus.Props.C39_ranked",
    "Columbus.Props.C39_deterministic",
    "Columbus.Props.C39_unique"
   ],
   "note": "All interleavings (relation Filled), sources of addResults and copyResult included. The ranking is characterised independently of the sort and shown to be unique."
  },
  {
   "property": "C40",
   "status": "partial",
   "theorems": [
    "Columbus.Props.C40_false",
    "Columbus.Props.C40_partial"
   ],
   "note": "False: copyResult copies the raw entry of a source that was not read since it was filled (C40_false). C40_partial: the ranked entry is copied if the source was read since; out_of_range is exact."
  },
  {
   "property": "C41",
   "status": "proved",
   "theorems": [
    "Columbus.Props.C41_text",
    "Columbus.Props.C41_fields",
    "Columbus.Props.C41_counts",
    "Columbus.Props.C41_utf8",
    "Columbus.Props.C41_corpus"
   ],
   "note": "Documents and corpora, all histories of addText; UTF-8 text through the split of C11."
  },
  {
   "property": "C42",
   "status": "proved",
   "theorems": [
    "Columbus.Props.C42_filter",
    "Columbus.Props.C42_terms"
   ],
   "note": "All call sequences; the terms are described by an independent recursion (termsOf, C42_terms)."
  },
  {
   "property": "C43",
   "status": "proved",
   "theorems": [
    "Columbus.Props.C43_parameters",
    "Columbus.Props.C43_weights",
    "Columbus.Props.C43_dynamicError"
   ],
   "note": "All call sequences."
  },
  {
   "property": "C44",
   "status": "proved",
   "theorems": [
    "Columbus.Props.C44_found",
    "Columbus.Props.C44_default"
   ],
   "note": "For costs that are not negative, moderate (price sums fit an int) and for which searches are complete (C20). C44_default instantiates to edit distance 2 (1 for one-letter words with dynamic limits)."
  },
  {
   "property": "C45",
   "status": "proved",
   "theorems": [
    "Columbus.Props.C45_filter",
    "Columbus.Props.C45_no_throw"
   ],
   "note": "Whatever the costs: the filtered search throws the same exception as the unfiltered one or keeps exactly the results whose documents satisfy a term; an empty word in a filter throws."
  },
  {
   "property": "C46",
   "status": "proved",
   "theorems": [
    "Columbus.Props.C46_ranked"
   ],
   "note": "Any matcher state, parameters and weights."
  },
  {
   "property": "C47",
   "status": "proved",
   "theorems": [
    "Columbus.Props.C47_relevancy"
   ],
   "note": "Any rounding with the laws of class Fp (monotone, exact on the representable numbers listed there)."
  },
  {
   "property": "C48",
   "status": "partial",
   "theorems": [
    "Columbus.Props.C48_result",
    "Columbus.Props.C48_state",
    "Columbus.Props.C48_program_partial",
    "Columbus.Props.C48_alike_partial",
    "Columbus.Props.C48_false"
   ],
   "note": "One call on any reachable matcher: C48_result, C48_state. Whole programs of calls: C48_program_partial (hash iteration and tie order never show, states included), C48_alike_partial (with evaluation order of arguments: same exceptions, same documents). False for exact relevancies: identifiers of filter words follow the evaluation order, so a later sum can round differently (C48_false)."
  },
  {
   "property": "C49",
   "status": "proved",
   "theorems": [
    "Columbus.Props.C49_word_set"
   ],
   "note": "All queries with equal sets of words; the outcome and the matcher afterwards are equal."
  },
  {
   "property": "C50",
   "status": "proved",
   "theorems": [
    "Columbus.Props.C50_nonneg",
    "Columbus.Props.C50_contribution",
    "Columbus.Props.C50_monotone"
   ],
   "note": "Sign, bound of each contribution (for weights that are doubles) and monotonicity in the weights, in rounded arithmetic."
  },
  {
   "property": "C51",
   "status": "proved",
   "theorems": [
    "Columbus.Props.C51_append",
    "Columbus.Props.C51_stays"
   ],
   "note": "C51_append holds for every state and corpus, with exceptions; C51_stays for the documents found."
  },
  {
   "property": "C52",
   "status": "partial",
   "theorems": [
    "Columbus.Props.C52_false",
    "Columbus.Props.C52_partial",
    "Columbus.Props.C52_later_false",
    "Columbus.Props.C52_quiet_partial"
   ],
   "note": "False: a search with a filter makes its words known, so a later onlineMatch with such a field does not throw (C52_false), and later identifiers, hence the rounding of relevancies after further indexing, change (C52_later_false). C52_partial: all other answers before further indexing are unchanged. C52_quiet_partial: searches with indexed filter words can be inserted anywhere without any effect. Otherwise documents and, up to rounding, relevancies agree (C74)."
  },
  {
   "property": "C53",
   "status": "proved",
   "theorems": [
    "Columbus.Props.C53_returns",
    "Columbus.Props.C53_unfiltered",
    "Columbus.Props.C53_filter_only",
    "Columbus.Props.C53_negative"
   ],
   "note": "Both build types; the memory condition is exact for the oracle of C16."
  },
  {
   "property": "C54",
   "status": "partial",
   "theorems": [
    "Columbus.Props.C54_false",
    "Columbus.Props.C54_partial"
   ],
   "note": "False: names of words and of filters are accepted as fields (C54_false). C54_partial: indexed fields are accepted and names never seen are rejected."
  },
  {
   "property": "C55",
   "status": "partial",
   "theorems": [
    "Columbus.Props.C55_partial",
    "Columbus.Props.C55_false"
   ],
   "note": "False for settings in which keeping a letter costs something (C55_false); C55_partial: true otherwise."
  },
  {
   "property": "C56",
   "status": "partial",
   "theorems": [
    "Columbus.Props.C56_partial",
    "Columbus.Props.C56_bonus",
    "Columbus.Props.C56_no_bonus",
    "Columbus.Props.C56_false"
   ],
   "note": "False: a repeated query word counts twice, so a field text with other words can get the bonus (C56_false). C56_partial gives the exact score; C56_bonus and C56_no_bonus the bonus."
  },
  {
   "property": "C57",
   "status": "proved",
   "theorems": [
    "Columbus.Props.C57_empty"
   ],
   "note": "Any matcher state and parameters."
  },
  {
   "property": "C58",
   "status": "proved",
   "theorems": [
    "Columbus.Props.C58_excludes",
    "Columbus.Props.C58_documents",
    "Columbus.Props.C58_relevancy"
   ],
   "note": "Documents and relevancies; filters may name the field."
  },
  {
   "property": "C59",
   "status": "proved",
   "theorems": [
    "Columbus.Props.C59_subset",
    "Columbus.Props.C59_equal"
   ],
   "note": "Subset for all queries, equality of outcomes for words of at least two letters."
  },
  {
   "property": "C60",
   "status": "partial",
   "theorems": [
    "Columbus.Props.C60_partial",
    "Columbus.Props.C60_searchable",
    "Columbus.Props.C60_refused",
    "Columbus.Props.C60_false"
   ],
   "note": "False of interruption by refused memory: every later search is undefined behaviour (C60_refused, C60_false). C60_partial, C60_searchable: interruption by an empty word, at any position."
  },
  {
   "property": "C61",
   "status": "partial",
   "theorems": [
    "Columbus.Props.C61_no_escape",
    "Columbus.Props.C61_returns",
    "Columbus.Props.C61_partial",
    "Columbus.Props.C61_stale",
    "Columbus.Props.C61_wrong",
    "Columbus.Props.C61_false"
   ],
   "note": "False of col_match_results_get_relevancy (C61_false, see C62). C61_partial: every other function, against the C++ counterpart. C61_no_escape: no exception leaves any function, valid handles or not. C61_returns: every valid call of every C program returns. C61_wrong: every other handle, null, stale or of a wrong kind, is undefined behaviour in every function (C61_stale: an instance)."
  },
  {
   "property": "C62",
   "status": "partial",
   "theorems": [
    "Columbus.Props.C62_partial",
    "Columbus.Props.C62_when",
    "Columbus.Props.C62_false"
   ],
   "note": "False: the document identifier is returned (C62_false). C62_partial gives the value for every index, C62_when when it is right."
  },
  {
   "property": "C63",
   "status": "proved",
   "theorems": [
    "Columbus.Props.C63_text",
    "Columbus.Props.C63_default",
    "Columbus.Props.C63_exact",
    "Columbus.Props.C63_online"
   ],
   "note": "Any sequence of preset operations (defaults, accents, keyboards, transparent, end deletion errors from 0 to 100). C63_text: outcome for every C string; C63_default: the set found; C63_exact; C63_online."
  },
  {
   "property": "C64",
   "status": "proved",
   "theorems": [
    "Columbus.Props.C64_counts",
    "Columbus.Props.C64_unknown",
    "Columbus.Props.C64_all"
   ],
   "note": "Counts over all fields and documents."
  },
  {
   "property": "C65",
   "status": "partial",
   "theorems": [
    "Columbus.Props.C65_partial",
    "Columbus.Props.C65_outcome",
    "Columbus.Props.C65_refused",
    "Columbus.Props.C65_blanks",
    "Columbus.Props.C65_false"
   ],
   "note": "False: a copy assignment that is refused memory leaves a deleted pointer (C65_refused, C65_false), the assignment of text with blanks a null pointer with a length (C65_blanks). C65_partial: every other step. C65_outcome: the values determine the outcome."
  },
  {
   "property": "C66",
   "status": "partial",
   "theorems": [
    "Columbus.Props.C66_partial",
    "Columbus.Props.C66_clean_partial",
    "Columbus.Props.C66_leak",
    "Columbus.Props.C66_false"
   ],
   "note": "False: converting ill-formed text loses an array (C66_leak, C66_false). C66_partial: exactly one array per such conversion, none otherwise. C66_clean_partial: nothing in use at the end."
  },
  {
   "property": "C67",
   "status": "proved",
   "theorems": [
    "Columbus.Props.C67_values",
    "Columbus.Props.C67_outcome",
    "Columbus.Props.C67_clean",
    "Columbus.Props.C67_moved",
    "Columbus.Props.C67_self"
   ],
   "note": "C67_moved and C67_self show that the conditions are needed. Memory is assumed granted."
  },
  {
   "property": "C68",
   "status": "partial",
   "theorems": [
    "Columbus.Props.C68_partial",
    "Columbus.Props.C68_copy",
    "Columbus.Props.C68_false"
   ],
   "note": "False: the implicit copy shares the private part (C68_copy, C68_false). C68_partial: programs without copies."
  },
  {
   "property": "C69",
   "status": "proved",
   "theorems": [
    "Columbus.Props.C69_words",
    "Columbus.Props.C69_equal"
   ],
   "note": "C69_words, C69_equal."
  },
  {
   "property": "C70",
   "status": "partial",
   "theorems": [
    "Columbus.Props.C70_read",
    "Columbus.Props.C70_same",
    "Columbus.Props.C70_query_partial",
    "Columbus.Props.C70_false"
   ],
   "note": "False of getQuery, which gives the empty word for every match (C70_query_partial, C70_false). C70_read: words and errors in any sequence of searches and clears; C70_same: the container does not influence the search."
  },
  {
   "property": "C71",
   "status": "partial",
   "theorems": [
    "Columbus.Props.C71_path_partial",
    "Columbus.Props.C71_empty",
    "Columbus.Props.C71_false",
    "Columbus.Props.C71_lines",
    "Columbus.Props.C71_accents_partial",
    "Columbus.Props.C71_standard_partial"
   ],
   "note": "False when the environment variable is set to the empty text: undefined behaviour (C71_empty, C71_false). C71_path_partial: every other environment; C71_lines: reading the lines; C71_accents_partial, C71_standard_partial: addAccents and addStandardErrors of the searched directory."
  },
  {
   "property": "C72",
   "status": "partial",
   "theorems": [
    "Columbus.Props.C72_split_partial",
    "Columbus.Props.C72_bytes_partial",
    "Columbus.Props.C72_well_formed_partial",
    "Columbus.Props.C72_ignored",
    "Columbus.Props.C72_false",
    "Columbus.Props.C72_halves"
   ],
   "note": "False of separators beyond ASCII: U+0080 to U+FF7F have no effect (C72_ignored, C72_false), from U+FF80 on they cut characters into halves (C72_halves). C72_split_partial: words and exceptions for all other separators; C72_well_formed_partial: success exactly on well-formed text when blanks are separators; C72_bytes_partial: what any separators do, as bytes."
  },
  {
   "property": "C73",
   "status": "proved",
   "theorems": [
    "Columbus.Props.C73_nearest",
    "Columbus.Props.C73_accuracy"
   ],
   "note": "C73_nearest: the rounding is to the nearest double. C73_accuracy: error bound and range of all partial sums."
  },
  {
   "property": "C74",
   "status": "proved",
   "theorems": [
    "Columbus.Props.C74_documents",
    "Columbus.Props.C74_relevancy"
   ],
   "note": "C74_documents for every arithmetic; C74_relevancy for IEEE arithmetic."
  },
  {
   "property": "C75",
   "status": "proved",
   "theorems": [
    "Columbus.Props.C75_more"
   ],
   "note": "C75_more, for every arithmetic with the laws of Fp."
  },
  {
   "property": "C76",
   "status": "partial",
   "theorems": [
    "Columbus.Props.C76_compare_partial",
    "Columbus.Props.C76_string",
    "Columbus.Props.C76_words",
    "Columbus.Props.C76_lower_partial",
    "Columbus.Props.C76_false"
   ],
   "note": "False of text with capital letters (C76_false). C76_compare_partial: the word is equal to the lower-cased text and nothing else; C76_lower_partial: text without capitals; C76_string: std::string; C76_words: != between words."
  },
  {
   "property": "C77",
   "status": "partial",
   "theorems": [
    "Columbus.Props.C77_letter_partial",
    "Columbus.Props.C77_collide",
    "Columbus.Props.C77_false"
   ],
   "note": "False: 192 of the 256 table entries are zero, so all words of equally many small ASCII letters, up to 67, collide (C77_collide, C77_false). C77_letter_partial: exactly when a replacement changes the hash."
  },
  {
   "property": "C78",
   "status": "partial",
   "theorems": [
    "Columbus.Props.C78_item_partial",
    "Columbus.Props.C78_dangling",
    "Columbus.Props.C78_iterate",
    "Columbus.Props.C78_words",
    "Columbus.Props.C78_text_partial",
    "Columbus.Props.C78_false"
   ],
   "note": "False: an item refers into the vector and dangles when the vector grows (C78_dangling for every growth policy, C78_false). C78_item_partial: until when an item is valid; C78_words, C78_iterate."
  },
  {
   "property": "C79",
   "status": "proved",
   "theorems": [
    "Columbus.Props.C79_cells",
    "Columbus.Props.C79_total",
    "Columbus.Props.C79_min"
   ],
   "note": "All sizes and sequences of set calls, for border costs that fit an int."
  },
  {
   "property": "C80",
   "status": "proved",
   "theorems": [
    "Columbus.Props.C80_settings",
    "Columbus.Props.C80_new"
   ],
   "note": "All histories; the value is read off the list of calls."
  },
  {
   "property": "C81",
   "status": "partial",
   "theorems": [
    "Columbus.Props.C81_prints_partial",
    "Columbus.Props.C81_limit",
    "Columbus.Props.C81_arguments",
    "Columbus.Props.C81_rejects",
    "Columbus.Props.C81_long_false",
    "Columbus.Props.C81_unterminated_false",
    "Columbus.Props.C81_single",
    "Columbus.Props.C81_false",
    "Columbus.Props.C81_overrun_false"
   ],
   "note": "False for files without a final newline (a debug build stops, a release build loses the last byte), lines of 1023 bytes and more, and words whose lower-case text has 1024 bytes (buffer overrun) or more. Proved for all other files, queries, limits and refusals of storage."
  },
  {
   "property": "C82",
   "status": "partial",
   "theorems": [
    "Columbus.Props.C82_queryapp_partial",
    "Columbus.Props.C82_numberpad_partial",
    "Columbus.Props.C82_dial",
    "Columbus.Props.C82_arguments",
    "Columbus.Props.C82_rejects",
    "Columbus.Props.C82_short_false",
    "Columbus.Props.C82_nul",
    "Columbus.Props.C82_example",
    "Columbus.Props.C82_return_false",
    "Columbus.Props.C82_false"
   ],
   "note": "False for files with a line of one character (the byte before the string is read; an empty line with a DOS line end is such a line) and for lines with a carriage return before the last character (only what is before it is used). Proved for all other files of text lines, all queries and refusals of storage; of a line with a NUL what is before it is used; lines of more than 10000000 bytes are not covered."
  },
  {
   "property": "C83",
   "status": "partial",
   "theorems": [
    "Columbus.Props.C83_partial",
    "Columbus.Props.C83_loads",
    "Columbus.Props.C83_data",
    "Columbus.Props.C83_rejects",
    "Columbus.Props.C83_short_false",
    "Columbus.Props.C83_env_false",
    "Columbus.Props.C83_nul",
    "Columbus.Props.C83_example",
    "Columbus.Props.C83_false"
   ],
   "note": "False for files with a line of one character (the byte before the string is read) and for an empty environment variable COLUMBUS_DATADIR. Proved for all other files of lines whose parts are text, all data files, queries and refusals of storage; of each part what is before a NUL, or a carriage return before the last character of the line, is used; lines of more than 10000000 bytes are not covered."
  },
  {
   "property": "C84",
   "status": "partial",
   "theorems": [
    "Columbus.Props.C84_programs",
    "Columbus.Props.C84_partial",
    "Columbus.Props.C84_directory",
    "Columbus.Props.C84_noFile",
    "Columbus.Props.C84_rejects",
    "Columbus.Props.C84_data",
    "Columbus.Props.C84_env_false",
    "Columbus.Props.C84_loads",
    "Columbus.Props.C84_nul",
    "Columbus.Props.C84_example",
    "Columbus.Props.C84_false"
   ],
   "note": "False for an empty environment variable COLUMBUS_DATADIR (the byte before it is read). Proved for all other environments, directories, data files, queries and refusals of storage; of keys and values what is before a NUL is used; lines of more than 10000000 bytes are not covered."
  },
  {
   "property": "C85",
   "status": "partial",
   "theorems": [
    "Columbus.Props.C85_partial",
    "Columbus.Props.C85_arguments",
    "Columbus.Props.C85_rejects",
    "Columbus.Props.C85_long_false",
    "Columbus.Props.C85_unterminated_false",
    "Columbus.Props.C85_single",
    "Columbus.Props.C85_false",
    "Columbus.Props.C85_overrun_false",
    "Columbus.Props.C85_example"
   ],
   "note": "False for a file without a final newline (the last character is lost, a debug build is aborted), for lines of more than 1022 bytes, and for words with a lower-case text of 1024 bytes or more (buffer overrun, or an exception that leaves the callback). Proved for all other files, queries, limits and refusals of storage; queries of more than 20000000 bytes are not covered."
  },
  {
   "property": "C86",
   "status": "partial",
   "theorems": [
    "Columbus.Props.C86_partial",
    "Columbus.Props.C86_refused",
    "Columbus.Props.C86_mapping",
    "Columbus.Props.C86_count",
    "Columbus.Props.C86_size",
    "Columbus.Props.C86_example",
    "Columbus.Props.C86_false",
    "Columbus.Props.C86_refused_false",
    "Columbus.Props.C86_oracle",
    "Columbus.Props.C86_agrees"
   ],
   "note": "False of the mapping: the destructor never unmaps, so each destroyed trie leaves its last mapping, whose length is proved; false of constructors that throw (the private part, and the file if there is one, stay). Proved for all programs and refusals: private part and file are given back. C86_agrees shows that the model of the trie used elsewhere, with one answer per size, has the same outcomes."
  },
  {
   "property": "C87",
   "status": "partial",
   "theorems": [
    "Columbus.Props.C87_accepts",
    "Columbus.Props.C87_rejects",
    "Columbus.Props.C87_round_trip",
    "Columbus.Props.C87_case",
    "Columbus.Props.C87_order",
    "Columbus.Props.C87_letters",
    "Columbus.Props.C87_text",
    "Columbus.Props.C87_buffer",
    "Columbus.Props.C87_false",
    "Columbus.Props.C87_partial",
    "Columbus.Props.C87_split",
    "Columbus.Props.C87_builds",
    "Columbus.Props.C87_hash",
    "Columbus.Props.C87_planes",
    "Columbus.Props.C87_order_differs"
   ],
   "note": "False of words made from letter arrays: this build accepts surrogates and numbers beyond Unicode, and such words throw when turned into text. Proved for text: acceptance, letters, round trip, equality, order, splitting; both builds accept the same texts, and words equal in the default build are equal here, but not conversely."
  },
  {
   "property": "C88",
   "status": "partial",
   "theorems": [
    "Columbus.Props.C88_call_partial",
    "Columbus.Props.C88_program_partial",
    "Columbus.Props.C88_search",
    "Columbus.Props.C88_text",
    "Columbus.Props.C88_online",
    "Columbus.Props.C88_group",
    "Columbus.Props.C88_standard",
    "Columbus.Props.C88_false_index",
    "Columbus.Props.C88_false_search"
   ],
   "note": "False as stated: a field name or query word made from an array of letters need not be well-formed UTF-16; printing it throws runtime_error after the work was done. Proved for whole programs with well-formed words; exact condition for searches and groups; the accent files are safe whatever is in them."
  },
  {
   "property": "C89",
   "status": "proved",
   "theorems": [
    "Columbus.Props.C89_index",
    "Columbus.Props.C89_search",
    "Columbus.Props.C89_group",
    "Columbus.Props.C89_accents",
    "Columbus.Props.C89_standard",
    "Columbus.Props.C89_silent",
    "Columbus.Props.C89_text",
    "Columbus.Props.C89_online"
   ],
   "note": "Messages as values; the formatting by printf and the timings are not modelled. Counts of words within the limit for settings for which searches are exact (C19, C20)."
  },
  {
   "property": "C90",
   "status": "partial",
   "theorems": [
    "Columbus.Props.C90_command_partial",
    "Columbus.Props.C90_lines_partial",
    "Columbus.Props.C90_agrees_partial",
    "Columbus.Props.C90_shown_partial",
    "Columbus.Props.C90_false_agrees",
    "Columbus.Props.C90_false_star",
    "Columbus.Props.C90_false_quote",
    "Columbus.Props.C90_false_name"
   ],
   "note": "False as stated: the star key is a repetition for grep, a quote in the query lets the shell run the rest of it, a file name with a blank is split, and words much longer than the query are not listed by the search. Proved for ordinary characters and plain names; agreement with the search for digits and first words at most 13 letters longer. The parts of the languages of sh and grep that matter are specified in Spec/ExactMatch.lean."
  },
  {
   "property": "C91",
   "status": "proved",
   "theorems": [
    "Columbus.Props.C91_calls",
    "Columbus.Props.C91_settled",
    "Columbus.Props.C91_answer",
    "Columbus.Props.C91_null",
    "Columbus.Props.C91_default"
   ],
   "note": "The rules are Known.Allows in Spec/CTexts.lean: live handles of the right kind, C strings, field names that are not empty, no buffer exactly as long as the text (C05), memory granted. col_match_results_get_relevancy returns the document instead of the relevancy (C62); the rules say what it does return. The order of results is that of C46."
  },
  {
   "property": "C92",
   "status": "proved",
   "theorems": [
    "Columbus.Props.C92_agrees",
    "Columbus.Props.C92_once",
    "Columbus.Props.C92_exact",
    "Columbus.Props.C92_depth",
    "Columbus.Props.C92_default",
    "Columbus.Props.C92_example"
   ],
   "note": "Model/Visits.lean is the search with a record of the nodes it looks at; C92_agrees shows that it is the same search. C92_once needs nothing of the settings; C92_exact needs prices whose sums fit an int."
  },
  {
   "property": "C93",
   "status": "proved",
   "theorems": [
    "Columbus.Props.C93_calls",
    "Columbus.Props.C93_settled",
    "Columbus.Props.C93_answer",
    "Columbus.Props.C93_raises",
    "Columbus.Props.C93_wrong",
    "Columbus.Props.C93_self",
    "Columbus.Props.C93_stale",
    "Columbus.Props.C93_letters",
    "Columbus.Props.C93_false"
   ],
   "note": "C93_calls: every allowed call returns by the rules of Spec/PyModule.lean; C93_settled: the rules determine what a program knows; C93_answer, C93_raises: searches. C93_self, C93_stale, C93_letters and C93_false show what the rules exclude, among it that set_error can not be called at all (test/pythontest.py calls it)."
  },
  {
   "property": "C94",
   "status": "proved",
   "theorems": [
    "Columbus.Props.C94_holds",
    "Columbus.Props.C94_left",
    "Columbus.Props.C94_agrees",
    "Columbus.Props.C94_leak",
    "Columbus.Props.C94_not_freed"
   ],
   "note": "C94_holds: what a matcher holds, exactly; C94_left: what its destructor gives back; C94_leak: the bytes that stay mapped, as a sum determined by the texts; C94_agrees: the tries agree with the model of C86; C94_not_freed: 1024 bytes for an unused matcher, 4096 for one with a single word of 40 letters."
  },
  {
   "property": "C95",
   "status": "proved",
   "theorems": [
    "Columbus.Props.C95_even",
    "Columbus.Props.C95_price",
    "Columbus.Props.C95_mutual",
    "Columbus.Props.C95_plain",
    "Columbus.Props.C95_substring",
    "Columbus.Props.C95_triangle_false"
   ],
   "note": "C95_mutual: for any settings with even prices under which searches miss nothing (C20); C95_plain: for the settings the library ships apart from substring mode, with no other assumption than the length of the words; C95_even: which histories of settings have even prices; C95_price: the three facts about prices. C95_substring and C95_triangle_false show what does not hold."
  },
  {
   "property": "C96",
   "status": "proved",
   "theorems": [
    "Columbus.Props.C96_more_words",
    "Columbus.Props.C96_closer",
    "Columbus.Props.C96_exact_first_false"
   ],
   "note": "C96_more_words: more words, with the place in the list; C96_closer: a closer word. C96_exact_first_false: a search for \"x\" lists the title \"y\" before \"x x x\", with the exact results."
  },
  {
   "property": "C97",
   "status": "partial",
   "theorems": [
    "Columbus.Props.C97_partial",
    "Columbus.Props.C97_kept",
    "Columbus.Props.C97_outcomes",
    "Columbus.Props.C97_lost",
    "Columbus.Props.C97_false",
    "Columbus.Props.C97_example"
   ],
   "note": "C97_partial: what the trie has when its mapping is not lost; C97_kept: it is not lost if ftruncate and mmap are never refused; C97_outcomes: the only outcomes; C97_lost: a trie without mapping can only be destroyed; C97_false: a full disk, then any look-up is undefined behaviour."
  },
  {
   "property": "C98",
   "status": "proved",
   "theorems": [
    "Columbus.Props.C98_filled",
    "Columbus.Props.C98_nodes",
    "Columbus.Props.C98_records",
    "Columbus.Props.C98_words",
    "Columbus.Props.C98_other",
    "Columbus.Props.C98_again",
    "Columbus.Props.C98_stranger",
    "Columbus.Props.C98_example"
   ],
   "note": "C98_nodes, C98_records, C98_words: the walk and the nodes; C98_other: words not in the trie; C98_again: inserting again; C98_filled: building fails only when storage is refused; C98_stranger: getSiblingTo throws for a node that is no child, if there are children (without children it reads the header as a record)."
  },
  {
   "property": "C99",
   "status": "partial",
   "theorems": [
    "Columbus.Props.C99_script",
    "Columbus.Props.C99_c",
    "Columbus.Props.C99_false",
    "Columbus.Props.C99_partial",
    "Columbus.Props.C99_classes",
    "Columbus.Props.C99_includes",
    "Columbus.Props.C99_headers"
   ],
   "note": "False as stated: split and isWhitespace are not in the version script (C99_false), SearchParameters and ResultFilter are named in an installed header and defined in none (C99_headers). C99_partial: all other functions are exported; C99_c for the C functions; C99_script: the matching of patterns against a specification, for all names; C99_classes: classes exported as a whole; C99_includes."
  },
  {
   "property": "C100",
   "status": "partial",
   "theorems": [
    "Columbus.Props.C100_false",
    "Columbus.Props.C100_characters",
    "Columbus.Props.C100_distances",
    "Columbus.Props.C100_partial",
    "Columbus.Props.C100_bmp_partial"
   ],
   "note": "False: a character outside the Basic Multilingual Plane is two letters, so one replacement can cost 200 and one swap 400 (C100_false). C100_partial: between 100 and 400 times the number of edits of characters, for all well-formed texts. C100_bmp_partial: exactly 100 times in the Basic Multilingual Plane. C100_distances: edits of letters against edits of characters. C100_characters: the characters of a word made from UTF-8."
  },
  {
   "property": "C101",
   "status": "partial",
   "theorems": [
    "Columbus.Props.C101_agrees",
    "Columbus.Props.C101_outcomes",
    "Columbus.Props.C101_partial",
    "Columbus.Props.C101_again",
    "Columbus.Props.C101_identifiers",
    "Columbus.Props.C101_false_count",
    "Columbus.Props.C101_false_identifier"
   ],
   "note": "False where a word is left half entered: without its identifier two words share one (C101_identifiers, C101_false_identifier), without its count a search reads past its matrix (C101_false_count). C101_partial: true for refusals anywhere else, also after several of them; C101_again: indexing again. C101_outcomes: how calls end. C101_agrees: the model is that of index when nothing is refused. Missing: the order of results after a refusal, and searches that run out of memory themselves."
  },
  {
   "property": "C102",
   "status": "partial",
   "theorems": [
    "Columbus.Props.C102_partial",
    "Columbus.Props.C102_data",
    "Columbus.Props.C102_queries",
    "Columbus.Props.C102_environment",
    "Columbus.Props.C102_arguments",
    "Columbus.Props.C102_rejects",
    "Columbus.Props.C102_empty",
    "Columbus.Props.C102_unterminated",
    "Columbus.Props.C102_long",
    "Columbus.Props.C102_false"
   ],
   "note": "False: more queries than words or a negative number read beyond the words (C102_queries, C102_false), an empty COLUMBUS_DATADIR is undefined (C102_environment), a line that is not one word ends the program with code 154 (C102_rejects, C102_empty), a last line without newline and a line of 1023 bytes or more abort a debug build and lose a byte in others (C102_unterminated, C102_long). C102_partial: files of words within the buffer and a number of queries up to their number."
  },
  {
   "property": "C103",
   "status": "partial",
   "theorems": [
    "Columbus.Props.C103_partial",
    "Columbus.Props.C103_least",
    "Columbus.Props.C103_rejects",
    "Columbus.Props.C103_arguments",
    "Columbus.Props.C103_false"
   ],
   "note": "False: with 0 or a negative number one line is indexed (C103_least, C103_false), a line that is no text ends the program with code 154 (C103_rejects), and a number that is no int is undefined (C103_arguments). C103_partial: positive numbers or none, and text in the lines that are read."
  },
  {
   "property": "C104",
   "status": "partial",
   "theorems": [
    "Columbus.Props.C104_edits",
    "Columbus.Props.C104_sharp",
    "Columbus.Props.C104_false",
    "Columbus.Props.C104_partial"
   ],
   "note": "False: \"ca\", \"ac\" and \"abc\" are one, one and three edits apart, in every build (C104_false, C104_sharp), since a swapped pair is not edited again. C104_partial: the sum of the errors and the lesser of them, for searches; C104_edits: the same for edits. C104_sharp shows that this bound is reached."
  },
  {
   "property": "C105",
   "status": "partial",
   "theorems": [
    "Columbus.Props.C105_partial",
    "Columbus.Props.C105_relevancy",
    "Columbus.Props.C105_words_partial",
    "Columbus.Props.C105_false"
   ],
   "note": "False: with a weight of 1000 a document with a similar text comes first (C105_false), and texts with the same number of words that have all those of the query get the bonus too (C56_false). C105_partial: documents that lack a word of the query or differ in the number of words, with a relevancy of at most 99 in match. C105_words_partial, C105_relevancy: with weights of at most 1 that is so if they have at most 99 words."
  },
  {
   "property": "C106",
   "status": "partial",
   "theorems": [
    "Columbus.Props.C106_exists",
    "Columbus.Props.C106_metric",
    "Columbus.Props.C106_distances",
    "Columbus.Props.C106_false",
    "Columbus.Props.C106_partial",
    "Columbus.Props.C106_match_partial"
   ],
   "note": "False: \"ca\" becomes \"abc\" in two changes, but the error is 300, in every build (C106_false); the library counts edits that do not touch a letter twice (C26). C106_partial: the error is at least 100 times the distance and at most 200 times less 100, so equal up to one change; C106_match_partial: what follows for match. C106_metric: the distance itself is a metric."
  },
  {
   "property": "C107",
   "status": "partial",
   "theorems": [
    "Columbus.Props.C107_partial",
    "Columbus.Props.C107_lower_partial",
    "Columbus.Props.C107_false"
   ],
   "note": "False: words are counted again, and relevancies fall, whatever the rounding (C107_false). C107_partial: the documents listed stay the same, for any part of what is indexed, with any parameters and filter. C107_lower_partial: if everything is indexed twice no relevancy rises."
  },
  {
   "property": "C108",
   "status": "partial",
   "theorems": [
    "Columbus.Props.C108_partial",
    "Columbus.Props.C108_false"
   ],
   "note": "False for characters outside the Basic Multilingual Plane, in every build (C108_false): one of them for a single letter, and two of them swapped. C108_partial: it holds for texts of the Basic Multilingual Plane, and for all others unless two such characters are swapped or a single letter is typed."
  },
  {
   "property": "C109",
   "status": "proved",
   "theorems": [
    "Columbus.Props.C109_apart",
    "Columbus.Props.C109_example"
   ],
   "note": "C109_apart: the earlier list is the later one without the new documents, exactly, for any parameters, filter, weights and rounding. C109_example: a concrete case."
  },
  {
   "property": "C110",
   "status": "proved",
   "theorems": [
    "Columbus.Props.C110_distance",
    "Columbus.Props.C110_search",
    "Columbus.Props.C110_match",
    "Columbus.Props.C110_relevancy"
   ],
   "note": "C110_distance and C110_search: distances and index searches. C110_match: documents listed by matchers. C110_relevancy: relevancies with IEEE arithmetic, with the rounding bound of C74."
  },
  {
   "property": "C111",
   "status": "proved",
   "theorems": [
    "Columbus.Props.C111_distance",
    "Columbus.Props.C111_backwards",
    "Columbus.Props.C111_search",
    "Columbus.Props.C111_search_backwards"
   ],
   "note": "C111_distance, C111_backwards: edit distances. C111_search, C111_search_backwards: searches in indexes."
  },
  {
   "property": "C112",
   "status": "proved",
   "theorems": [
    "Columbus.Props.C112_power",
    "Columbus.Props.C112_factor"
   ],
   "note": "C112_power: powers of two, exact. C112_factor: any factor, up to rounding. onlineMatch adds parts without weight (C56), so nothing is said about it."
  },
  {
   "property": "C113",
   "status": "proved",
   "theorems": [
    "Columbus.Props.C113_documents",
    "Columbus.Props.C113_relevancy"
   ],
   "note": "C113_documents: the documents. C113_relevancy: both bounds of the relevancy."
  },
  {
   "property": "C114",
   "status": "partial",
   "theorems": [
    "Columbus.Props.C114_query",
    "Columbus.Props.C114_partial",
    "Columbus.Props.C114_false"
   ],
   "note": "C114_query: query words. C114_partial: indexing, if no field of a document was indexed with texts of different lengths. C114_false: otherwise the last one indexed decides about the bonus of 100."
  },
  {
   "property": "C115",
   "status": "proved",
   "theorems": [
    "Columbus.Props.C115_unrelated"
   ],
   "note": "C115_unrelated: any rounding that is monotone, also for documents indexed again."
  },
  {
   "property": "C116",
   "status": "partial",
   "theorems": [
    "Columbus.Props.C116_agrees",
    "Columbus.Props.C116_partial",
    "Columbus.Props.C116_false"
   ],
   "note": "C116_agrees: without refusals the model is that of the other properties. C116_partial: refusals other than of the identifier of a new word of the filter. C116_false: after such a refusal the next new word indexed counts as the word of the filter."
  },
  {
   "property": "C117",
   "status": "proved",
   "theorems": [
    "Columbus.Props.C117_order",
    "Columbus.Props.C117_narrow",
    "Columbus.Props.C117_either",
    "Columbus.Props.C117_both",
    "Columbus.Props.C117_empty_term",
    "Columbus.Props.C117_returns"
   ],
   "note": "For searches that return; C117_returns says when they do."
  },
  {
   "property": "C118",
   "status": "partial",
   "theorems": [
    "Columbus.Props.C118_least",
    "Columbus.Props.C118_price",
    "Columbus.Props.C118_partial",
    "Columbus.Props.C118_typing",
    "Columbus.Props.C118_false"
   ],
   "note": "C118_price, C118_least: the price is 15 for each letter outside the part. C118_partial: words of at most 13 more letters (6 for one letter), and no longer ones. C118_typing: typing on. C118_false: a word of 17 letters is not found by its first three."
  },
  {
   "property": "C119",
   "status": "partial",
   "theorems": [
    "Columbus.Props.C119_partial",
    "Columbus.Props.C119_false"
   ],
   "note": "C119_partial: documents found only for that word, while counts are below 2^53, whichever word of the field is the most frequent. C119_false: a document found for two words gains by the other one."
  },
  {
   "property": "C120",
   "status": "proved",
   "theorems": [
    "Columbus.Props.C120_price",
    "Columbus.Props.C120_cheaper",
    "Columbus.Props.C120_preset_prices",
    "Columbus.Props.C120_preset"
   ],
   "note": "C120_price: the price of a word. C120_cheaper: any two settings, also those for which searches are not complete (C20). C120_preset: preset settings against those of a new matcher."
  },
  {
   "property": "C121",
   "status": "partial",
   "theorems": [
    "Columbus.Props.C121_partial",
    "Columbus.Props.C121_cheaper",
    "Columbus.Props.C121_false"
   ],
   "note": "C121_partial: every document stays, and those without the bonus for a text equal to the query keep their score. C121_cheaper: settings under which mistakes cost less. C121_false: the bonus of 100 is lost."
  },
  {
   "property": "C122",
   "status": "proved",
   "theorems": [
    "Columbus.Props.C122_twins",
    "Columbus.Props.C122_online"
   ],
   "note": "C122_twins: match with any filter, and the order. C122_online: the scores of onlineMatch."
  },
  {
   "property": "C123",
   "status": "proved",
   "theorems": [
    "Columbus.Props.C123_zero"
   ],
   "note": "C123_zero: the smaller list is a sublist of the larger one; all that is missing in it has relevancy 0. Which documents these are is C58."
  },
  {
   "property": "C124",
   "status": "proved",
   "theorems": [
    "Columbus.Props.C124_favour",
    "Columbus.Props.C124_field"
   ],
   "note": "C124_favour: any weights raised but those of the fields in which the document matches. C124_field: the weight of one field."
  },
  {
   "property": "C125",
   "status": "proved",
   "theorems": [
    "Columbus.Props.C125_apart"
   ],
   "note": "C125_apart, for C109 with the part for exact words."
  },
  {
   "property": "C126",
   "status": "proved",
   "theorems": [
    "Columbus.Props.C126_kept",
    "Columbus.Props.C126_again",
    "Columbus.Props.C126_sizes"
   ],
   "note": "C126_kept: the matcher is unchanged, and the outcome is that of onlineMatch or bad_alloc for memory of the call itself, which some request was refused for. C126_again: any number of calls. C126_sizes: the loop over exact words with any sizes."
  }
 ]
}