import Verif.Model.Matcher
import Verif.Spec.Store
import Verif.Spec.Errors
import Verif.Spec.Index
import Verif.Spec.Results
/-
Specification of the matcher: what was indexed, which executions are possible, what a search should find.
-/

namespace Columbus.Spec
open Columbus

/-- One indexed text: document, field, number of words of the text, and the words that were indexed. These are all the
words of the text unless indexing was interrupted. -/
structure Indexed where
  doc : DocumentID
  field : Word
  size : Nat
  words : WordList
deriving DecidableEq

/-- The texts indexed so far, in order. -/
abbrev MatcherHistory := List Indexed

namespace MatcherHistory

/-- The document has the word in the field. -/
def Posting (H : MatcherHistory) (d : DocumentID) (f w : Word) : Prop := ∃ x ∈ H, x.doc = d ∧ x.field = f ∧ w ∈ x.words

instance (H : MatcherHistory) (d : DocumentID) (f w : Word) : Decidable (Posting H d f w) :=
  inferInstanceAs (Decidable (∃ x ∈ H, x.doc = d ∧ x.field = f ∧ w ∈ x.words))

/-- All indexed words of a field, with repetitions. -/
def occurrences (H : MatcherHistory) (f : Word) : List Word := (H.filter fun x => x.field == f).flatMap Indexed.words

/-- How often a word was indexed in a field. -/
def count (H : MatcherHistory) (f w : Word) : Nat := (H.occurrences f).count w

/-- The largest of these numbers. -/
def maxCount (H : MatcherHistory) (f : Word) : Nat := ((H.occurrences f).map (H.count f)).foldl max 0

/-- The number of words of the text last indexed for a field of a document. -/
def size (H : MatcherHistory) (d : DocumentID) (f : Word) : Option Nat :=
  (H.reverse.find? fun x => x.doc == d && x.field == f).map Indexed.size

/-- All indexed words. -/
def words (H : MatcherHistory) : List Word := H.flatMap Indexed.words

/-- All field names and words of the history. -/
def mentions (H : MatcherHistory) : List Word := H.flatMap fun x => x.field :: x.words

end MatcherHistory

/-- The texts of a corpus in the order in which they are indexed: documents in order, fields in the order of
`Word::operator<`. -/
def corpusTexts (c : Corpus) : MatcherHistory := c.flatMap fun d => d.texts.map fun t => ⟨d.id, t.1, t.2.length, t.2⟩

/-- The part of it before the first empty word or field name. -/
def beforeEmpty : MatcherHistory → MatcherHistory
  | [] => []
  | x :: r =>
    if x.field = [] then []
    else if [] ∈ x.words then [{ x with words := x.words.takeWhile (fun w => !w.isEmpty) }]
    else x :: beforeEmpty r

/-- No empty word, no empty field name. -/
def NoEmpty (H : MatcherHistory) : Prop := ∀ x ∈ H, x.field ≠ [] ∧ [] ∉ x.words

/-- A word that can be made from UTF-8 text: empty or good. -/
def Usable (w : Word) : Prop := w = [] ∨ GoodWord w

/-- A corpus of documents made by `addText` with usable words. -/
def CorpusOk (c : Corpus) : Prop :=
  ∀ d ∈ c, ∃ h, d = documentOf d.id h ∧ ∀ p ∈ h, Usable p.1 ∧ ∀ w ∈ p.2, Usable w

/-- The field names and words of a filter. -/
def filterWords (f : ResultFilter) : List Word := f.termList.flatten.flatMap fun p => [p.1, p.2]

/-- The document satisfies all pairs of some term. -/
def Satisfies (H : MatcherHistory) (f : ResultFilter) (d : DocumentID) : Prop :=
  ∃ t ∈ f.termList, ∀ p ∈ t, H.Posting d p.1 p.2

instance (H : MatcherHistory) (f : ResultFilter) (d : DocumentID) : Decidable (Satisfies H f d) :=
  inferInstanceAs (Decidable (∃ t ∈ f.termList, ∀ p ∈ t, H.Posting d p.1 p.2))

/-- A term evaluated from left to right as far as needed: `none` if an empty word is reached, which has no identifier. -/
def termValue (H : MatcherHistory) (d : DocumentID) : List (Word × Word) → Option Bool
  | [] => some true
  | p :: r => if p.1 = [] ∨ p.2 = [] then none else if H.Posting d p.1 p.2 then termValue H d r else some false

/-- The terms of a filter evaluated from left to right until one holds. -/
def filterValue (H : MatcherHistory) (d : DocumentID) : List (List (Word × Word)) → Option Bool
  | [] => some false
  | t :: r => match termValue H d t with
    | none => none
    | some true => some true
    | some false => filterValue H d r

/-- The results that a filter keeps, `none` if an empty word is reached for one of them. -/
def kept (H : MatcherHistory) (f : ResultFilter) : List Result → Option (List Result)
  | [] => some []
  | x :: r => match filterValue H x.2 f.termList with
    | none => none
    | some b => (kept H f r).map fun k => if b then x :: k else k

/-- The number of letters of some words. -/
def lettersIn (ws : List Word) : Nat := (ws.map List.length).sum

/-- Memory for that many letters may be refused: by the operating system, or because a file would reach 2 GiB. -/
def StorageRefused (os : Nat → Bool) (letters : Nat) : Prop := (∃ n, os n = false) ∨ 2^31 ≤ 36 + 32 * letters

/-- An exception that the caller can catch and go on: not a refusal of memory, a failed assertion or undefined
behaviour. -/
def Fault.Benign (f : Fault) : Prop := f = .outOfRange ∨ f = .invalidArgument

/-- `Ran os m H K`: some interleaving of calls of the public interface led to the matcher `m`; `H` are the texts indexed
on the way, `K` the words of the filters used. Calls that end in a refusal of memory (`runtime_error`) are excluded: the
code gives no guarantee for the object afterwards. So are those that end in undefined behaviour or a failed assertion.
Other exceptions are caught and the object used on. -/
inductive Ran [Build] [Icu] [Runtime] [Fp] (os : Nat → Bool) : Matcher → MatcherHistory → List Word → Prop
  | new {m} : Matcher.new os = .ok m → Ran os m [] []
  | index {m H K c m' o} : Ran os m H K → CorpusOk c → m.index c = (m', o) → (∀ f, o = some f → Fault.Benign f) →
      Ran os m' (H ++ beforeEmpty (corpusTexts c)) K
  | search {m H K q p m' r} : Ran os m H K → (∀ w ∈ filterWords p.filter, Usable w) → m.matchQuery q p = (m', r) →
      (∀ f, r = .error f → Fault.Benign f) → Ran os m' H (K ++ filterWords p.filter)
  | online {m H K q f m' r} : Ran os m H K → (∀ w ∈ q, Usable w) → Usable f → m.onlineMatch q f = (m', r) →
      (∀ x, r = .error x → Fault.Benign x) → Ran os m' H K
  | errors {m H K} (op : ErrOp) : Ran os m H K → Ran os { m with e := (op.run m.e).1 } H K
  | weight {m H K} (f : Word) (v : ℚ) : Ran os m H K → Ran os { m with weights := IndexWeights.setWeight m.weights f v } H K

/-- The error limit for a query word. -/
def limit (p : SearchParameters) (q : Word) : Int := if p.isDynamic = true ∧ q.length < 2 then 100 else 200

/-- The word `w` of a field counts as a match of the query with error `v`: `v` is the least price of editing a query word
into it, within the limit of that query word. -/
structure CloseTo (e : ErrorValues) (p : SearchParameters) (query : WordList) (w : Word) (v : Int) : Prop where
  near : ∃ q ∈ query, IsEditCost (configured e q.length) q w v ∧ v ≤ limit p q
  least : ∀ q ∈ query, ∀ v', IsEditCost (configured e q.length) q w v' → v' ≤ limit p q → v ≤ v'

/-- What the word `w` in the field `f`, matched with error `v`, contributes to the relevancy of a document, in double
arithmetic. -/
def contribution [Fp] (weights : IndexWeights) (H : MatcherHistory) (f w : Word) (v : Int) : ℚ :=
  fmul (fmul (Fp.rnd (100 / fadd 100 (ofInt v)))
    (fsub 1 (Fp.rnd (ofInt (H.count f w) / ofInt ((H.maxCount f : Int) + 1))))) (IndexWeights.getWeight weights f)

/-- The same in exact arithmetic. -/
def exactContribution (weights : IndexWeights) (H : MatcherHistory) (f w : Word) (v : Int) : ℚ :=
  100 / (100 + (v : ℚ)) * (1 - (H.count f w : ℚ) / ((H.maxCount f : ℚ) + 1)) * IndexWeights.getWeight weights f

/-- How many query words, with repetitions, occur exactly in the field of the document. -/
def exacts (H : MatcherHistory) (query : WordList) (f : Word) (d : DocumentID) : Nat :=
  query.countP fun w => decide (H.Posting d f w)

/-- What `onlineMatch` adds for them. -/
def exactPart [Fp] (H : MatcherHistory) (query : WordList) (f : Word) (d : DocumentID) : ℚ :=
  if exacts H query f d = 0 then 0
  else if exacts H query f d = query.length ∧ H.size d f = some (exacts H query f d) then
    fadd (ofInt (2 * (exacts H query f d : Int))) 100
  else ofInt (2 * (exacts H query f d : Int))

/-- No filter: one term without conditions, as a fresh `ResultFilter` has. -/
def Unfiltered (p : SearchParameters) : Prop := p.filter.termList = [[]]

/-- What a caller can read from a results object: the list `k` of relevancies and documents. -/
structure Shows (r : MatchResults) (k : List Result) : Prop where
  size : r.size = k.length
  document : ∀ i x, k[i]? = some x → ∃ r', r.getDocumentID i = .ok (r', x.2)
  relevancy : ∀ i x, k[i]? = some x → ∃ r', r.getRelevancy i = .ok (r', x.1)

/-- Rank order: falling relevancy, equal ones by rising identifier. -/
def RankOrder (a b : Result) : Prop := b.1 < a.1 ∨ (a.1 = b.1 ∧ a.2 < b.2)

/-- The sum of numbers from left to right, in double arithmetic. -/
def sumUp [Fp] : List ℚ → ℚ
  | [] => 0
  | x :: r => r.foldl fadd x

/-- The query and the settings are usable: no NUL letters, no negative prices, price sums within `int`; in a build with
assertions, insertions and deletions cost the same (otherwise an assertion fails, see C28). -/
structure Sane [Build] (e : ErrorValues) (query : WordList) (H : MatcherHistory) : Prop where
  noNul : ∀ q ∈ query, ∀ l ∈ q, l ≠ 0#16
  nonNeg : ∀ q ∈ query, (configured e q.length).NonNeg
  moderate : ∀ q ∈ query, Moderate (configured e q.length) q (H.words.map fun w => (w, 0))
  assertion : Build.asserts = false ∨ e.getInsertionError = e.getDeletionError

/-- The settings for which searches are exact and complete (C19, C20). -/
structure Exact (e : ErrorValues) (query : WordList) : Prop where
  same : e.getInsertionError = e.getDeletionError
  dear : ∀ q ∈ query, (configured e q.length).SwapsAreDear

end Columbus.Spec
