import Verif.Model.Basic
import Mathlib.Data.List.Infix

/-! The symbols that programs can link to: the version script src/libcolumbus.map and the installed headers
(include/CMakeLists.txt 2-14). C++ functions are named by their demangled names, as GNU ld does for `extern "C++"`
(64-bit GNU/Linux, `Letter` being `LetterT<unsigned short>`). -/

namespace Columbus.Exports

/-- The characters of a text in quotes. -/
scoped syntax "ascii! " str : term

open Lean in
macro_rules
  | `(ascii! $s:str) => do
    let cs := (s.getString.toList.map fun c => Syntax.mkNumLit (toString c.toNat)).toArray
    `(([$cs,*] : List Nat))

/-- A line of the script: a name in quotes is taken literally, any other is a pattern. -/
inductive Entry where
  | quoted (name : Bytes)
  | pattern (p : Bytes)
  deriving DecidableEq

/-- `fnmatch` for patterns whose only special character is `*` (42). -/
def globMatch : Bytes → Bytes → Bool
  | [], s => s.isEmpty
  | c :: p, s =>
    if c = 42 then s.tails.any (globMatch p)
    else match s with
      | [] => false
      | b :: r => b == c && globMatch p r

/-- Whether a line of the script is about a name. -/
def Entry.isFor : Entry → Bytes → Bool
  | .quoted n, s => n == s
  | .pattern p, s => globMatch p s

/-- The `extern "C++"` part of `global:` (src/libcolumbus.map 3-84). -/
def cppGlobals : List Entry := [
  .quoted (ascii! "Columbus::Matcher::Matcher()"),
  .quoted (ascii! "Columbus::Matcher::~Matcher()"),
  .pattern (ascii! "Columbus::Matcher::match*"),
  .pattern (ascii! "Columbus::Matcher::onlineMatch*"),
  .pattern (ascii! "Columbus::Matcher::get*"),
  .pattern (ascii! "Columbus::Matcher::operator*"),
  .pattern (ascii! "Columbus::Matcher::index*"),
  .pattern (ascii! "Columbus::Word::Word*"),
  .quoted (ascii! "Columbus::Word::~Word()"),
  .quoted (ascii! "Columbs::Word::length()"),
  .quoted (ascii! "Columbus::Word::asUtf8[abi:cxx11]() const"),
  .pattern (ascii! "Columbus::Word::toUtf8*"),
  .pattern (ascii! "Columbus::Word::join*"),
  .pattern (ascii! "Columbus::Word::operator*"),
  .quoted (ascii! "Columbus::Word::hash() const"),
  .pattern (ascii! "Columbus::WordStore*"),
  .pattern (ascii! "Columbus::Corpus*"),
  .pattern (ascii! "Columbus::WordList*"),
  .pattern (ascii! "Columbus::Document*"),
  .pattern (ascii! "Columbus::MatchResults::MatchResults*"),
  .quoted (ascii! "Columbus::MatchResults::~MatchResults()"),
  .pattern (ascii! "Columbus::MatchResults::operator*"),
  .pattern (ascii! "Columbus::MatchResults::add*"),
  .pattern (ascii! "Columbus::MatchResults::copyResult*"),
  .quoted (ascii! "Columbus::MatchResults::size() const"),
  .pattern (ascii! "Columbus::MatchResults::get*"),
  .quoted (ascii! "Columbus::ErrorValues::ErrorValues()"),
  .quoted (ascii! "Columbus::ErrorValues::~ErrorValues()"),
  .quoted (ascii! "Columbus::ErrorValues::getInsertionError() const"),
  .quoted (ascii! "Columbus::ErrorValues::getDeletionError() const"),
  .quoted (ascii! "Columbus::ErrorValues::getEndDeletionError() const"),
  .pattern (ascii! "Columbus::ErrorValues::getStartInsertionError*"),
  .quoted (ascii! "Columbus::ErrorValues::getTransposeError() const"),
  .quoted (ascii! "Columbus::ErrorValues::setInsertionError(const int)"),
  .quoted (ascii! "Columbus::ErrorValues::setDeletionError(const int)"),
  .quoted (ascii! "Columbus::ErrorValues::setEndDeletionError(const int)"),
  .quoted (ascii! "Columbus::ErrorValues::setStartInsertionError(const int)"),
  .quoted (ascii! "Columbus::ErrorValues::setTransposeError(const int)"),
  .pattern (ascii! "Columbus::ErrorValues::setSubstringStartLimit*"),
  .pattern (ascii! "Columbus::ErrorValues::getSubstituteError*"),
  .quoted (ascii! "Columbus::ErrorValues::getDefaultError()"),
  .quoted (ascii! "Columbus::ErrorValues::getDefaultGroupError()"),
  .quoted (ascii! "Columbus::ErrorValues::getDefaultTypoError()"),
  .quoted (ascii! "Columbus::ErrorValues::getSubstringDefaultEndDeletionError()"),
  .quoted (ascii! "Columbus::ErrorValues::getSubstringDefaultStartInsertionError()"),
  .pattern (ascii! "Columbus::ErrorValues::setError*"),
  .pattern (ascii! "Columbus::ErrorValues::setGroupError*"),
  .pattern (ascii! "Columbus::ErrorValues::addAccents*"),
  .quoted (ascii! "Columbus::ErrorValues::addKeyboardErrors()"),
  .quoted (ascii! "Columbus::ErrorValues::addNumberpadErrors()"),
  .quoted (ascii! "Columbus::ErrorValues::addStandardErrors()"),
  .pattern (ascii! "Columbus::ErrorValues::isInGroup*"),
  .quoted (ascii! "Columbus::ErrorValues::clearErrors()"),
  .quoted (ascii! "Columbus::ErrorValues::setSubstringMode()"),
  .quoted (ascii! "Columbus::IndexMatches::IndexMatches()"),
  .quoted (ascii! "Columbus::IndexMatches::~IndexMatches()"),
  .quoted (ascii! "Columbus::IndexMatches::size() const"),
  .pattern (ascii! "Columbus::IndexMatches::getMatch*"),
  .pattern (ascii! "Columbus::IndexMatches::getQuery*"),
  .pattern (ascii! "Columbus::IndexMatches::getMatchError*"),
  .quoted (ascii! "Columbus::IndexMatches::clear()"),
  .pattern (ascii! "Columbus::IndexWeights*"),
  .quoted (ascii! "Columbus::LevenshteinIndex::LevenshteinIndex()"),
  .quoted (ascii! "Columbus::LevenshteinIndex::~LevenshteinIndex()"),
  .quoted (ascii! "Columbus::LevenshteinIndex::getDefaultError()"),
  .pattern (ascii! "Columbus::LevenshteinIndex::insertWord*"),
  .pattern (ascii! "Columbus::LevenshteinIndex::hasWord*"),
  .pattern (ascii! "Columbus::LevenshteinIndex::findWords*"),
  .pattern (ascii! "Columbus::LevenshteinIndex::wordCount*"),
  .quoted (ascii! "Columbus::LevenshteinIndex::maxCount() const"),
  .quoted (ascii! "Columbus::LevenshteinIndex::numNodes() const"),
  .quoted (ascii! "Columbus::LevenshteinIndex::numWords() const"),
  .pattern (ascii! "Columbus::SearchParameters*"),
  .pattern (ascii! "Columbus::ResultFilter*"),
  .quoted (ascii! "Columbus::hiresTimestamp()"),
  .quoted (ascii! "Columbus::splitToWords(char const*)")]

/-- The C names (src/libcolumbus.map 85-116). -/
def cGlobals : List Bytes := [
  ascii! "col_word_new", ascii! "col_word_delete", ascii! "col_word_length", ascii! "col_word_as_utf8",
  ascii! "col_document_new", ascii! "col_document_delete", ascii! "col_document_get_id", ascii! "col_document_add_text",
  ascii! "col_matcher_new", ascii! "col_matcher_delete", ascii! "col_matcher_index", ascii! "col_matcher_match",
  ascii! "col_matcher_get_error_values", ascii! "col_matcher_get_index_weights",
  ascii! "col_match_results_new", ascii! "col_match_results_delete", ascii! "col_match_results_size",
  ascii! "col_match_results_get_id", ascii! "col_match_results_get_relevancy",
  ascii! "col_corpus_new", ascii! "col_corpus_delete", ascii! "col_corpus_add_document",
  ascii! "col_index_weights_set_weight", ascii! "col_index_weights_get_weight",
  ascii! "col_error_values_add_standard_errors", ascii! "col_error_values_set_substring_mode"]

/-- Whether the linker leaves a C++ function global: a line of `global:` goes before the `*` of `local:`
(src/libcolumbus.map 118-121). -/
def exportsCpp (name : Bytes) : Bool := cppGlobals.any (·.isFor name)

/-- The same for a C function. -/
def exportsC (name : Bytes) : Bool := cGlobals.any (· == name)

/-- The functions declared in include/columbus.h (46-77). -/
def cFunctions : List Bytes := [
  ascii! "col_word_new", ascii! "col_word_delete", ascii! "col_word_length", ascii! "col_word_as_utf8",
  ascii! "col_document_new", ascii! "col_document_delete", ascii! "col_document_get_id", ascii! "col_document_add_text",
  ascii! "col_matcher_new", ascii! "col_matcher_delete", ascii! "col_matcher_index", ascii! "col_matcher_match",
  ascii! "col_matcher_get_error_values", ascii! "col_matcher_get_index_weights",
  ascii! "col_match_results_new", ascii! "col_match_results_delete", ascii! "col_match_results_size",
  ascii! "col_match_results_get_id", ascii! "col_match_results_get_relevancy",
  ascii! "col_corpus_new", ascii! "col_corpus_delete", ascii! "col_corpus_add_document",
  ascii! "col_index_weights_set_weight", ascii! "col_index_weights_get_weight",
  ascii! "col_error_values_add_standard_errors", ascii! "col_error_values_set_substring_mode"]

/-- The functions declared `COL_PUBLIC`, or public in a class declared so, in an installed C++ header and not defined in
it: include/Matcher.hh 48-73, MatchResults.hh 36-49, Word.hh 46-73, WordList.hh 35-46, Corpus.hh 35-42, ErrorValues.hh
62-96, Document.hh 38-53, IndexWeights.hh 33-38, ColumbusHelpers.hh 32-35. -/
def cppFunctions : List Bytes := [
  ascii! "Columbus::Matcher::Matcher()",
  ascii! "Columbus::Matcher::~Matcher()",
  ascii! "Columbus::Matcher::match(char const*)",
  ascii! "Columbus::Matcher::match(Columbus::WordList const&)",
  ascii! "Columbus::Matcher::match(std::__cxx11::basic_string<char, std::char_traits<char>, std::allocator<char> > const&)",
  ascii! "Columbus::Matcher::match(char const*, Columbus::SearchParameters const&)",
  ascii! "Columbus::Matcher::match(Columbus::WordList const&, Columbus::SearchParameters const&)",
  ascii! "Columbus::Matcher::index(Columbus::Corpus const&)",
  ascii! "Columbus::Matcher::getErrorValues()",
  ascii! "Columbus::Matcher::getIndexWeights()",
  ascii! "Columbus::Matcher::onlineMatch(Columbus::WordList const&, Columbus::Word const&)",
  ascii! "Columbus::MatchResults::MatchResults()",
  ascii! "Columbus::MatchResults::~MatchResults()",
  ascii! "Columbus::MatchResults::MatchResults(Columbus::MatchResults const&)",
  ascii! "Columbus::MatchResults::MatchResults(Columbus::MatchResults&&)",
  ascii! "Columbus::MatchResults::operator=(Columbus::MatchResults&&)",
  ascii! "Columbus::MatchResults::operator=(Columbus::MatchResults const&)",
  ascii! "Columbus::MatchResults::addResult(unsigned long, double)",
  ascii! "Columbus::MatchResults::addResults(Columbus::MatchResults const&)",
  ascii! "Columbus::MatchResults::copyResult(Columbus::MatchResults const&, unsigned long)",
  ascii! "Columbus::MatchResults::size() const",
  ascii! "Columbus::MatchResults::getDocumentID(unsigned long) const",
  ascii! "Columbus::MatchResults::getRelevancy(unsigned long) const",
  ascii! "Columbus::Word::Word()",
  ascii! "Columbus::Word::Word(Columbus::Word const&)",
  ascii! "Columbus::Word::Word(Columbus::Word&&)",
  ascii! "Columbus::Word::Word(std::__cxx11::basic_string<char, std::char_traits<char>, std::allocator<char> > const&)",
  ascii! "Columbus::Word::Word(char const*)",
  ascii! "Columbus::Word::Word(LetterT<unsigned short>*, unsigned long)",
  ascii! "Columbus::Word::~Word()",
  ascii! "Columbus::Word::toUtf8(char*, unsigned int) const",
  ascii! "Columbus::Word::asUtf8[abi:cxx11]() const",
  ascii! "Columbus::Word::join(Columbus::Word const&) const",
  ascii! "Columbus::Word::operator[](unsigned int) const",
  ascii! "Columbus::Word::operator==(Columbus::Word const&) const",
  ascii! "Columbus::Word::operator==(std::__cxx11::basic_string<char, std::char_traits<char>, std::allocator<char> > const&) const",
  ascii! "Columbus::Word::operator==(char const*) const",
  ascii! "Columbus::Word::operator!=(Columbus::Word const&) const",
  ascii! "Columbus::Word::operator!=(std::__cxx11::basic_string<char, std::char_traits<char>, std::allocator<char> > const&) const",
  ascii! "Columbus::Word::operator!=(char const*) const",
  ascii! "Columbus::Word::operator<(Columbus::Word const&) const",
  ascii! "Columbus::Word::operator=(Columbus::Word const&)",
  ascii! "Columbus::Word::operator=(Columbus::Word&&)",
  ascii! "Columbus::Word::operator=(char const*)",
  ascii! "Columbus::Word::operator=(std::__cxx11::basic_string<char, std::char_traits<char>, std::allocator<char> > const&)",
  ascii! "Columbus::Word::hash() const",
  ascii! "Columbus::WordList::WordList()",
  ascii! "Columbus::WordList::WordList(Columbus::WordList const&)",
  ascii! "Columbus::WordList::WordList(Columbus::WordList&&)",
  ascii! "Columbus::WordList::~WordList()",
  ascii! "Columbus::WordList::size() const",
  ascii! "Columbus::WordList::operator[](unsigned long) const",
  ascii! "Columbus::WordList::operator=(Columbus::WordList const&)",
  ascii! "Columbus::WordList::operator=(Columbus::WordList&&)",
  ascii! "Columbus::WordList::operator==(Columbus::WordList const&) const",
  ascii! "Columbus::WordList::operator!=(Columbus::WordList const&) const",
  ascii! "Columbus::WordList::addWord(Columbus::Word const&)",
  ascii! "Columbus::Corpus::Corpus()",
  ascii! "Columbus::Corpus::~Corpus()",
  ascii! "Columbus::Corpus::addDocument(Columbus::Document const&)",
  ascii! "Columbus::Corpus::size() const",
  ascii! "Columbus::Corpus::getDocument(unsigned long) const",
  ascii! "Columbus::ErrorValues::ErrorValues()",
  ascii! "Columbus::ErrorValues::~ErrorValues()",
  ascii! "Columbus::ErrorValues::getSubstituteError(LetterT<unsigned short>, LetterT<unsigned short>) const",
  ascii! "Columbus::ErrorValues::setError(LetterT<unsigned short>, LetterT<unsigned short>, int)",
  ascii! "Columbus::ErrorValues::setGroupError(Columbus::Word const&, int)",
  ascii! "Columbus::ErrorValues::addAccents(Columbus::accentGroups)",
  ascii! "Columbus::ErrorValues::addKeyboardErrors()",
  ascii! "Columbus::ErrorValues::addNumberpadErrors()",
  ascii! "Columbus::ErrorValues::addStandardErrors()",
  ascii! "Columbus::ErrorValues::isInGroup(LetterT<unsigned short>)",
  ascii! "Columbus::ErrorValues::clearErrors()",
  ascii! "Columbus::ErrorValues::setSubstringMode()",
  ascii! "Columbus::Document::Document(unsigned long)",
  ascii! "Columbus::Document::Document(Columbus::Document const&)",
  ascii! "Columbus::Document::~Document()",
  ascii! "Columbus::Document::operator=(Columbus::Document const&)",
  ascii! "Columbus::Document::addText(Columbus::Word const&, Columbus::WordList const&)",
  ascii! "Columbus::Document::addText(Columbus::Word const&, char const*)",
  ascii! "Columbus::Document::addText(Columbus::Word const&, std::__cxx11::basic_string<char, std::char_traits<char>, std::allocator<char> > const&)",
  ascii! "Columbus::Document::getText(Columbus::Word const&) const",
  ascii! "Columbus::Document::fieldCount() const",
  ascii! "Columbus::Document::getID() const",
  ascii! "Columbus::Document::getFieldNames(Columbus::WordList&) const",
  ascii! "Columbus::Document::wordCount(Columbus::Word const&, Columbus::Word) const",
  ascii! "Columbus::Document::totalWordCount(Columbus::Word const&) const",
  ascii! "Columbus::IndexWeights::IndexWeights()",
  ascii! "Columbus::IndexWeights::~IndexWeights()",
  ascii! "Columbus::IndexWeights::setWeight(Columbus::Word const&, double)",
  ascii! "Columbus::IndexWeights::getWeight(Columbus::Word const&) const",
  ascii! "Columbus::hiresTimestamp()",
  ascii! "Columbus::splitToWords(char const*)",
  ascii! "Columbus::split(char const*, LetterT<unsigned short> const*, int)",
  ascii! "Columbus::isWhitespace(LetterT<unsigned short>)"]

/-- A header, the headers of the library it includes, and the classes defined and the classes named in it. -/
structure Header where
  name : Bytes
  includes : List Bytes
  defines : List Bytes
  names : List Bytes

/-- The installed headers (include/CMakeLists.txt 2-14). -/
def installed : List Header := [
  ⟨ascii! "ColumbusCore.hh", [], [], []⟩,
  ⟨ascii! "Matcher.hh", [ascii! "ColumbusCore.hh"], [ascii! "Matcher"],
    [ascii! "Corpus", ascii! "Word", ascii! "Document", ascii! "WordList", ascii! "MatchResults", ascii! "ErrorValues",
      ascii! "IndexWeights", ascii! "ResultFilter", ascii! "SearchParameters"]⟩,
  ⟨ascii! "MatchResults.hh", [ascii! "ColumbusCore.hh"], [ascii! "MatchResults"], [ascii! "Word"]⟩,
  ⟨ascii! "columbus.h", [ascii! "ColumbusCore.hh"], [], []⟩,
  ⟨ascii! "columbus.hh", [ascii! "Matcher.hh", ascii! "MatchResults.hh", ascii! "Corpus.hh", ascii! "Word.hh", ascii! "WordList.hh",
    ascii! "Document.hh", ascii! "ColumbusHelpers.hh", ascii! "IndexWeights.hh", ascii! "ErrorValues.hh"], [], []⟩,
  ⟨ascii! "Word.hh", [ascii! "ColumbusCore.hh"], [ascii! "Word"], []⟩,
  ⟨ascii! "WordList.hh", [ascii! "ColumbusCore.hh"], [ascii! "WordList"], [ascii! "Word"]⟩,
  ⟨ascii! "Corpus.hh", [ascii! "ColumbusCore.hh"], [ascii! "Corpus"], [ascii! "Document"]⟩,
  ⟨ascii! "ErrorValues.hh", [ascii! "ColumbusCore.hh"], [ascii! "ErrorValues"], [ascii! "Word"]⟩,
  ⟨ascii! "Document.hh", [ascii! "ColumbusCore.hh"], [ascii! "Document"], [ascii! "Word", ascii! "WordList"]⟩,
  ⟨ascii! "ColumbusHelpers.hh", [ascii! "ColumbusCore.hh"], [], [ascii! "Word", ascii! "WordList"]⟩,
  ⟨ascii! "IndexWeights.hh", [ascii! "ColumbusCore.hh"], [ascii! "IndexWeights"], [ascii! "Word"]⟩]

end Columbus.Exports
