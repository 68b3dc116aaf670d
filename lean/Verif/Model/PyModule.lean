import Verif.Model.Matcher
import Verif.Model.Python
/-
python/columbus.cc: the whole module as a Python program sees it.

What Boost.Python does is part of the trusted base. A Python string reaches the library as its UTF-8 bytes, and the library
reads it up to the first NUL (`c_str`). An argument of a class without converter is refused before the call. Exceptions are
translated (`raised`). `return_internal_reference` keeps the owner alive, so that objects are never freed while something
refers to them or to a part of them: nothing is freed in the model.
-/

namespace Columbus.Py
open Columbus Python

/-- The vector of a `WordList` (src/WordList.cc 29-31): its capacity, and how often its elements were moved to another place. -/
structure Vec where
  words : List Word
  capacity : Nat
  place : Nat

/-- `WordList()` (src/WordList.cc 33-35). -/
def Vec.new : Vec := ⟨[], 0, 0⟩

/-- A copy (src/WordList.cc 37-40), also that which Boost.Python makes of a list that is returned by value. -/
def Vec.copy (ws : List Word) : Vec := ⟨ws, ws.length, 0⟩

/-- `push_back` (src/WordList.cc 60-62): moves the elements if the vector is full. -/
def Vec.add [Growth] (v : Vec) (w : Word) : Vec :=
  if v.words.length < v.capacity then { v with words := v.words ++ [w] }
  else { words := v.words ++ [w], capacity := Growth.grow v.words.length, place := v.place + 1 }

/-- Assignment (src/WordList.cc 64-69): the elements are assigned where they are, if there is room. -/
def Vec.assign (v : Vec) (ws : List Word) : Vec :=
  if ws.length ≤ v.capacity then { v with words := ws } else ⟨ws, ws.length, v.place + 1⟩

/-- The objects made by a program (python/columbus.cc 31, 37, 43, 53, 62, 69, 78, 90). A document has its texts as vectors. -/
inductive Obj where
  | word (w : Word)
  | list (v : Vec)
  | document (id : DocumentID) (texts : SMap Word Vec)
  | corpus (c : Corpus)
  | results (r : MatchResults)
  | matcher (m : Matcher)
  | errors (e : ErrorValues)
  | weights (w : IndexWeights)

/-- A list: an object, or the text of a field of a document, from `get_text`. -/
inductive ListRef where
  | obj (n : Nat)
  | text (n : Nat) (field : Word)
deriving DecidableEq

/-- A word: an object, or an item of a list, by the number under which it was taken. -/
inductive WordRef where
  | obj (n : Nat)
  | item (k : Nat)
deriving DecidableEq

/-- Error values or weights: an object, or the part of a matcher. -/
inductive PartRef where
  | obj (n : Nat)
  | ofMatcher (n : Nat)
deriving DecidableEq

/-- All objects, and the items taken: of which list, at which position, and the place of the elements then. -/
structure World where
  objs : List Obj
  items : List (ListRef × Nat × Nat)

/-- How a call ends: with a value or with a Python exception. -/
inductive Ret where
  | none
  | number (n : Nat)
  | int (v : Int)
  | real (v : ℚ)
  | text (t : Bytes)
  | object (n : Nat)
  | item (k : Nat)
  | list (l : ListRef)
  | part (p : PartRef)
  | indexError
  | valueError
  | runtimeError
  | argumentError
deriving DecidableEq

/-- The translation of exceptions by Boost.Python: `out_of_range` to IndexError, `invalid_argument` to ValueError,
`runtime_error` to RuntimeError. Other faults are no exceptions. -/
def raised : Fault → M Ret
  | .outOfRange => .ok .indexError
  | .invalidArgument => .ok .valueError
  | .runtimeError => .ok .runtimeError
  | f => .error f

/-- The calls of a program. -/
inductive Call where
  | wordNew (s : Bytes)
  | wordString (w : WordRef)
  | wordLen (w : WordRef)
  | listNew
  | listCopy (l : ListRef)
  | listLen (l : ListRef)
  | listGet (l : ListRef) (i : Nat)
  | listAdd (l : ListRef) (w : WordRef)
  | split (s : Bytes)
  | documentNew (id : DocumentID)
  | documentCopy (n : Nat)
  | fieldCount (n : Nat)
  | getId (n : Nat)
  | getText (n : Nat) (field : WordRef)
  | addText (n : Nat) (field : WordRef) (s : Bytes)
  | corpusNew
  | corpusSize (n : Nat)
  | corpusAdd (n d : Nat)
  | resultsNew
  | resultsAdd (n k : Nat)
  | resultsId (n i : Nat)
  | resultsRelevancy (n i : Nat)
  | resultsLen (n : Nat)
  | matcherNew (os : Nat → Bool)
  | index (n c : Nat)
  | search (n : Nat) (s : Bytes)
  | getErrorvalues (n : Nat)
  | getIndexweights (n : Nat)
  | errorsNew
  | addStandardErrors (e : PartRef) (data : ErrorValues.DataDir)
  | setSubstringMode (e : PartRef)
  | setEndDeletionError (e : PartRef) (v : Int)
  | setError (e : PartRef) (l1 l2 : Nat) (v : Int)
  | getSubstituteError (e : PartRef) (l1 l2 : Nat)
  | getDefaultError
  | getDefaultEndDeletionError
  | clearErrors (e : PartRef)
  | weightsNew
  | setWeight (p : PartRef) (field : WordRef) (v : ℚ)
  | getWeight (p : PartRef) (field : WordRef)

/-- What the library sees of a string. -/
def cut (s : Bytes) : Bytes := s.takeWhile (· != 0)

namespace World

/-- The object itself. A program has no references to objects that were not made, and none of the wrong class: using one is
treated like undefined behaviour. -/
def obj (w : World) (n : Nat) : M Obj :=
  match w.objs[n]? with
  | some o => .ok o
  | none => .error .ub

def put (w : World) (n : Nat) (o : Obj) : World := { w with objs := w.objs.set n o }

/-- A new object. -/
def make (w : World) (o : Obj) : World × Ret := ({ w with objs := w.objs ++ [o] }, .object w.objs.length)

def document (w : World) (n : Nat) : M (DocumentID × SMap Word Vec) := do
  match ← w.obj n with
  | .document id texts => .ok (id, texts)
  | _ => .error .ub

def corpus (w : World) (n : Nat) : M Corpus := do
  match ← w.obj n with
  | .corpus c => .ok c
  | _ => .error .ub

def results (w : World) (n : Nat) : M MatchResults := do
  match ← w.obj n with
  | .results r => .ok r
  | _ => .error .ub

def matcher (w : World) (n : Nat) : M Matcher := do
  match ← w.obj n with
  | .matcher m => .ok m
  | _ => .error .ub

/-- The vector of a list. The text of a document is an element of a `map`, which stays where it is. -/
def vec (w : World) : ListRef → M Vec
  | .obj n => do
    match ← w.obj n with
    | .list v => .ok v
    | _ => .error .ub
  | .text n f => do
    let (_, texts) ← w.document n
    match SMap.find Word.lt texts f with
    | some v => .ok v
    | none => .error .ub

def putVec (w : World) (l : ListRef) (v : Vec) : M World :=
  match l with
  | .obj n => .ok (w.put n (.list v))
  | .text n f => do
    let (id, texts) ← w.document n
    .ok (w.put n (.document id (SMap.set Word.lt texts f v)))

/-- The word itself. An item is a pointer to an element of the vector: undefined if the elements were moved or there are fewer
now. -/
def word (w : World) : WordRef → M Word
  | .obj n => do
    match ← w.obj n with
    | .word x => .ok x
    | _ => .error .ub
  | .item k =>
    match w.items[k]? with
    | none => .error .ub
    | some (l, i, place) => do
      let v ← w.vec l
      if v.place = place then
        match v.words[i]? with
        | some x => .ok x
        | none => .error .ub
      else .error .ub

def errors (w : World) : PartRef → M ErrorValues
  | .obj n => do
    match ← w.obj n with
    | .errors e => .ok e
    | _ => .error .ub
  | .ofMatcher n => do
    let m ← w.matcher n
    .ok m.e

def putErrors (w : World) (p : PartRef) (e : ErrorValues) : M World :=
  match p with
  | .obj n => .ok (w.put n (.errors e))
  | .ofMatcher n => do
    let m ← w.matcher n
    .ok (w.put n (.matcher { m with e := e }))

def weights (w : World) : PartRef → M IndexWeights
  | .obj n => do
    match ← w.obj n with
    | .weights x => .ok x
    | _ => .error .ub
  | .ofMatcher n => do
    let m ← w.matcher n
    .ok m.weights

def putWeights (w : World) (p : PartRef) (x : IndexWeights) : M World :=
  match p with
  | .obj n => .ok (w.put n (.weights x))
  | .ofMatcher n => do
    let m ← w.matcher n
    .ok (w.put n (.matcher { m with weights := x }))

/-- A call that throws before it has changed anything. -/
def orRaise {α : Type} (w : World) (x : M α) (f : α → M (World × Ret)) : M (World × Ret) :=
  match x with
  | .ok a => f a
  | .error e => do
    let r ← raised e
    .ok (w, r)

end World

/-- The document as the library has it. -/
def documentValue (id : DocumentID) (texts : SMap Word Vec) : Document := ⟨id, texts.map fun p => (p.1, p.2.words)⟩

variable [Build] [Icu] [Runtime] [Fp] [Growth]

/-- One call. -/
def Call.run (w : World) : Call → M (World × Ret)
  -- python/columbus.cc 37-40; src/Word.cc 84-86, 253-260
  | .wordNew s => w.orRaise (Word.ofUtf8 (cut s)) fun x => .ok (w.make (.word x))
  | .wordString r => do
    let x ← w.word r
    w.orRaise (Word.asUtf8 x) fun t => .ok (w, .text t)
  | .wordLen r => do
    let x ← w.word r
    .ok (w, .number x.length)
  -- 42-49
  | .listNew => .ok (w.make (.list .new))
  | .listCopy l => do
    let v ← w.vec l
    .ok (w.make (.list (.copy v.words)))
  | .listLen l => do
    let v ← w.vec l
    .ok (w, .number v.words.length)
  | .listGet l i => do
    let v ← w.vec l
    if i < v.words.length then .ok ({ w with items := w.items ++ [(l, i, v.place)] }, .item w.items.length)
    else .ok (w, .indexError)
  -- The item added may be one of the same vector: `push_back` copes with that.
  | .listAdd l r => do
    let x ← w.word r
    let v ← w.vec l
    let w ← w.putVec l (v.add x)
    .ok (w, .none)
  -- 51; src/ColumbusHelpers.cc 128-130
  | .split s => w.orRaise (splitToWords (cut s)) fun ws => .ok (w.make (.list (.copy ws)))
  -- 53-60; src/Document.cc 38-79
  | .documentNew id => .ok (w.make (.document id []))
  | .documentCopy n => do
    let (id, texts) ← w.document n
    .ok (w.make (.document id (texts.map fun p => (p.1, .copy p.2.words))))
  | .fieldCount n => do
    let (_, texts) ← w.document n
    .ok (w, .number texts.length)
  | .getId n => do
    let (id, _) ← w.document n
    .ok (w, .number id)
  | .getText n r => do
    let (_, texts) ← w.document n
    let f ← w.word r
    match SMap.find Word.lt texts f with
    | some _ => .ok (w, .list (.text n f))
    | none => .ok (w, .valueError)
  | .addText n r s => do
    let (id, texts) ← w.document n
    let f ← w.word r
    w.orRaise (splitToWords (cut s)) fun ws =>
      let v := match SMap.find Word.lt texts f with
        | some v => v
        | none => Vec.new
      .ok (w.put n (.document id (SMap.set Word.lt texts f (v.assign ws))), .none)
  -- 31-35; src/Corpus.cc 40-46
  | .corpusNew => .ok (w.make (.corpus []))
  | .corpusSize n => do
    let c ← w.corpus n
    .ok (w, .number c.length)
  | .corpusAdd n d => do
    let c ← w.corpus n
    let (id, texts) ← w.document d
    .ok (w.put n (.corpus (Corpus.addDocument c (documentValue id texts))), .none)
  -- 62-67; src/MatchResults.cc 77-120: `insert` must not be given a range of the vector itself
  | .resultsNew => .ok (w.make (.results .new))
  | .resultsAdd n k => do
    let r ← w.results n
    let o ← w.results k
    if n = k then .error .ub else .ok (w.put n (.results (r.addResults o)), .none)
  | .resultsId n i => do
    let r ← w.results n
    w.orRaise (r.getDocumentID i) fun (r, id) => .ok (w.put n (.results r), .number id)
  | .resultsRelevancy n i => do
    let r ← w.results n
    w.orRaise (r.getRelevancy i) fun (r, v) => .ok (w.put n (.results r), .real v)
  | .resultsLen n => do
    let r ← w.results n
    .ok (w, .number r.size)
  -- 69-76; src/Matcher.cc 249-260, 365-381
  | .matcherNew os => w.orRaise (Matcher.new os) fun m => .ok (w.make (.matcher m))
  | .index n k => do
    let m ← w.matcher n
    let c ← w.corpus k
    match m.index c with
    | (m, none) => .ok (w.put n (.matcher m), .none)
    | (m, some f) => do
      let r ← raised f
      .ok (w.put n (.matcher m), r)
  | .search n s => do
    let m ← w.matcher n
    match m.matchUtf8 (cut s) with
    | (m, .ok r) => .ok ((w.put n (.matcher m)).make (.results r))
    | (m, .error f) => do
      let r ← raised f
      .ok (w.put n (.matcher m), r)
  | .getErrorvalues n => do
    let _ ← w.matcher n
    .ok (w, .part (.ofMatcher n))
  | .getIndexweights n => do
    let _ ← w.matcher n
    .ok (w, .part (.ofMatcher n))
  -- 78-88; include/ErrorValues.hh 75-88. `Letter` is a class without converter (include/ColumbusCore.hh.in 148-201), so
  -- the calls that take letters are refused.
  | .errorsNew => .ok (w.make (.errors .new))
  | .addStandardErrors p data => do
    let e ← w.errors p
    match ErrorValues.addStandardErrors data e with
    | (e, none) => do
      let w ← w.putErrors p e
      .ok (w, .none)
    | (e, some f) => do
      let r ← raised f
      let w ← w.putErrors p e
      .ok (w, r)
  | .setSubstringMode p => do
    let e ← w.errors p
    let w ← w.putErrors p e.setSubstringMode
    .ok (w, .none)
  | .setEndDeletionError p v => do
    let e ← w.errors p
    let w ← w.putErrors p (e.setEndDeletionError v)
    .ok (w, .none)
  | .setError p _ _ _ => do
    let _ ← w.errors p
    .ok (w, .argumentError)
  | .getSubstituteError p _ _ => do
    let _ ← w.errors p
    .ok (w, .argumentError)
  | .getDefaultError => .ok (w, .int DEFAULT_ERROR)
  | .getDefaultEndDeletionError => .ok (w, .int DEFAULT_SUBSTRING_END_DELETION_ERROR)
  | .clearErrors p => do
    let e ← w.errors p
    let w ← w.putErrors p e.clearErrors
    .ok (w, .none)
  -- 90-93; src/IndexWeights.cc 40-49
  | .weightsNew => .ok (w.make (.weights []))
  | .setWeight p r v => do
    let x ← w.weights p
    let f ← w.word r
    let w ← w.putWeights p (IndexWeights.setWeight x f v)
    .ok (w, .none)
  | .getWeight p r => do
    let x ← w.weights p
    let f ← w.word r
    .ok (w, .real (IndexWeights.getWeight x f))

end Columbus.Py
