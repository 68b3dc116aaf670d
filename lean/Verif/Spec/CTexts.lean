import Verif.Spec.Apps
/-
Specification of C programs in terms of the texts they pass: what a program knows about its objects, which calls it may make,
what each call returns and what it changes.
-/

namespace Columbus.Spec
open Columbus CApi

/-- A document as the program described it: the names of fields and their texts, in the order in which they were added. -/
structure Described where
  id : DocumentID
  texts : List (Bytes × Bytes)

/-- Two names are the same but for upper and lower case. -/
def SameName [Icu] (a b : Bytes) : Prop := ∃ t, LowerText a t ∧ LowerText b t

/-- The document has the text in some field: it was added, and no other text was added for the field after it. -/
def Described.Has [Icu] (d : Described) (t : Bytes) : Prop :=
  ∃ pre f post, d.texts = pre ++ (f, t) :: post ∧ ∀ p ∈ post, ¬ SameName p.1 f

/-- What a program knows about an object: of a word, the text it was made from; of a document, what was added; of a corpus, the
documents as they were when they were added; of a matcher, the documents as they were when they were indexed, the settings, the
weights, and how the operating system answers; of results, the documents listed. -/
inductive Thing where
  | word (t : Bytes)
  | document (d : Described)
  | corpus (ds : List Described)
  | matcher (os : Nat → Bool) (ds : List Described) (ops : List ErrOp) (ws : List (Bytes × ℚ))
  | results (ids : List DocumentID)

/-- All objects of a program, by the number of their handle; `none` for those it has deleted. -/
abbrev Known := List (Option Thing)

/-- The handle is that of an object known to be `t`. -/
def Known.Is (k : Known) (x : Handle) (t : Thing) : Prop := ∃ n, x = .obj n ∧ k[n]? = some (some t)

/-- A new object, and its handle. -/
def Known.New (k k' : Known) (r : CRet) (t : Thing) : Prop := r = .handle (.obj k.length) ∧ k' = k ++ [some t]

/-- The object of the handle is now `t`. -/
def Known.Now (k k' : Known) (x : Handle) (t : Thing) : Prop := ∃ n, x = .obj n ∧ k' = k.set n (some t)

/-- The object of the handle, if any, is gone. -/
def Known.Gone (k k' : Known) (x : Handle) : Prop := (x = .null ∧ k' = k) ∨ ∃ n, x = .obj n ∧ k' = k.set n none

/-- The bytes of some documents, with the names of fields. -/
def describedLength (ds : List Described) : Nat := (ds.map fun d => textsLength d.texts).sum

/-- The calls a program may make: handles lead to objects of the right kind that were not deleted (null may be deleted), texts
are C strings of moderate length, the name of a field is not empty, the buffer for a word is not exactly as long as its text
in lower case, and there is memory for the texts to be indexed. -/
def Known.Allows [Icu] (k : Known) : CCall → Prop
  | .wordNew s => CString s
  | .wordDelete x => x = .null ∨ ∃ t, k.Is x (.word t)
  | .wordLength x => ∃ t, k.Is x (.word t)
  | .wordAsUtf8 x n => ∃ t, k.Is x (.word t) ∧ ∀ s, LowerText t s → n ≠ s.length
  | .documentNew _ => True
  | .documentDelete x => x = .null ∨ ∃ d, k.Is x (.document d)
  | .documentGetId x => ∃ d, k.Is x (.document d)
  | .documentAddText x y s => (∃ d, k.Is x (.document d)) ∧ (∃ t, k.Is y (.word t) ∧ t ≠ []) ∧ CString s
  | .matcherNew _ => True
  | .matcherDelete x => x = .null ∨ ∃ os ds ops ws, k.Is x (.matcher os ds ops ws)
  | .matcherIndex x y => ∃ os ds ops ws cs, k.Is x (.matcher os ds ops ws) ∧ k.Is y (.corpus cs) ∧
    ¬ StorageRefused os (2 * describedLength (ds ++ cs))
  | .matcherMatch x s => (∃ os ds ops ws, k.Is x (.matcher os ds ops ws)) ∧ CString s
  | .matcherGetErrorValues x => ∃ os ds ops ws, k.Is x (.matcher os ds ops ws)
  | .matcherGetIndexWeights x => ∃ os ds ops ws, k.Is x (.matcher os ds ops ws)
  | .matchResultsNew => True
  | .matchResultsDelete x => x = .null ∨ ∃ ids, k.Is x (.results ids)
  | .matchResultsSize x => ∃ ids, k.Is x (.results ids)
  | .matchResultsGetId x _ => ∃ ids, k.Is x (.results ids)
  | .matchResultsGetRelevancy x _ => ∃ ids, k.Is x (.results ids)
  | .corpusNew => True
  | .corpusDelete x => x = .null ∨ ∃ cs, k.Is x (.corpus cs)
  | .corpusAddDocument x y => (∃ cs, k.Is x (.corpus cs)) ∧ ∃ d, k.Is y (.document d)
  | .addStandardErrors _ x => ∃ n os ds ops ws, x = .errorsOf n ∧ k.Is (.obj n) (.matcher os ds ops ws)
  | .setSubstringMode x => ∃ n os ds ops ws, x = .errorsOf n ∧ k.Is (.obj n) (.matcher os ds ops ws)
  | .setWeight x y _ => (∃ n os ds ops ws, x = .weightsOf n ∧ k.Is (.obj n) (.matcher os ds ops ws)) ∧ ∃ t, k.Is y (.word t)
  | .getWeight x y => (∃ n os ds ops ws, x = .weightsOf n ∧ k.Is (.obj n) (.matcher os ds ops ws)) ∧ ∃ t, k.Is y (.word t)

/-- The documents to be listed for a query, each once: those that have a text with a word that is close to a word of the
query. -/
def Lists [Build] [Icu] (ds : List Described) (ops : List ErrOp) (q : Bytes) (ids : List DocumentID) : Prop :=
  ids.Nodup ∧ ∀ i, i ∈ ids ↔ ∃ d ∈ ds, d.id = i ∧ ∃ t, d.Has t ∧ Close (PriceWith (afterOps ops)) q t

/-- The weight of a field: the last one that was set for it, 1 if none was. -/
def WeightIs [Icu] (ws : List (Bytes × ℚ)) (f : Bytes) (v : ℚ) : Prop :=
  (∃ pre g post, ws = pre ++ (g, v) :: post ∧ SameName g f ∧ ∀ p ∈ post, ¬ SameName p.1 f) ∨
    (v = 1 ∧ ∀ p ∈ ws, ¬ SameName p.1 f)

/-- What a call returns and what the program knows after it. -/
def Known.Learns [Build] [Icu] [Fp] (k : Known) (c : CCall) (r : CRet) (k' : Known) : Prop :=
  match c with
  | .wordNew s =>
    (WellFormed s ∧ (∀ b ∈ s, ¬ IsBlank b) → k.New k' r (.word s)) ∧
    (¬ (WellFormed s ∧ ∀ b ∈ s, ¬ IsBlank b) → r = .handle .null ∧ k' = k)
  | .wordLength x => k' = k ∧ ∃ t w, k.Is x (.word t) ∧ LowerLetters t w ∧ r = .number w.length
  | .wordAsUtf8 x n => k' = k ∧ ∃ t s, k.Is x (.word t) ∧ LowerText t s ∧ r = .text (if s.length < n then some s else none)
  | .documentNew id => k.New k' r (.document ⟨id, []⟩)
  | .documentGetId x => k' = k ∧ ∃ d, k.Is x (.document d) ∧ r = .number d.id
  | .documentAddText x y s => r = .nothing ∧ ∃ d t, k.Is x (.document d) ∧ k.Is y (.word t) ∧
    (WellFormed s → k.Now k' x (.document ⟨d.id, d.texts ++ [(t, s)]⟩)) ∧ (¬ WellFormed s → k' = k)
  | .matcherNew os => (os 1024 = true → k.New k' r (.matcher os [] [] [])) ∧ (os 1024 = false → r = .handle .null ∧ k' = k)
  | .matcherIndex x y => r = .nothing ∧ ∃ os ds ops ws cs, k.Is x (.matcher os ds ops ws) ∧ k.Is y (.corpus cs) ∧
    k.Now k' x (.matcher os (ds ++ cs) ops ws)
  | .matcherMatch x s => ∃ os ds ops ws, k.Is x (.matcher os ds ops ws) ∧
    (WellFormed s → ∃ ids, Lists ds ops s ids ∧ k.New k' r (.results ids)) ∧
    (¬ WellFormed s → r = .handle .null ∧ k' = k)
  | .matcherGetErrorValues x => k' = k ∧ ∃ n, x = .obj n ∧ r = .handle (.errorsOf n)
  | .matcherGetIndexWeights x => k' = k ∧ ∃ n, x = .obj n ∧ r = .handle (.weightsOf n)
  | .matchResultsNew => k.New k' r (.results [])
  | .matchResultsSize x => k' = k ∧ ∃ ids, k.Is x (.results ids) ∧ r = .number ids.length
  | .matchResultsGetId x i => k' = k ∧ ∃ ids, k.Is x (.results ids) ∧ r = .number (ids[i]?.getD (2^64 - 1))
  | .matchResultsGetRelevancy x i => k' = k ∧ ∃ ids, k.Is x (.results ids) ∧
    r = .real (match ids[i]? with | some id => ofInt id | none => -1)
  | .corpusNew => k.New k' r (.corpus [])
  | .corpusAddDocument x y => r = .nothing ∧ ∃ cs d, k.Is x (.corpus cs) ∧ k.Is y (.document d) ∧ k.Now k' x (.corpus (cs ++ [d]))
  | .addStandardErrors data x => r = .nothing ∧ ∃ n os ds ops ws, x = .errorsOf n ∧ k.Is (.obj n) (.matcher os ds ops ws) ∧
    k.Now k' (.obj n) (.matcher os ds (ops ++ [.addStandardErrors data]) ws)
  | .setSubstringMode x => r = .nothing ∧ ∃ n os ds ops ws, x = .errorsOf n ∧ k.Is (.obj n) (.matcher os ds ops ws) ∧
    k.Now k' (.obj n) (.matcher os ds (ops ++ [.setSubstringMode]) ws)
  | .setWeight x y v => r = .nothing ∧ ∃ n os ds ops ws t, x = .weightsOf n ∧ k.Is (.obj n) (.matcher os ds ops ws) ∧
    k.Is y (.word t) ∧ k.Now k' (.obj n) (.matcher os ds ops (ws ++ [(t, v)]))
  | .getWeight x y => k' = k ∧ ∃ n os ds ops ws t v, x = .weightsOf n ∧ k.Is (.obj n) (.matcher os ds ops ws) ∧ k.Is y (.word t) ∧
    WeightIs ws t v ∧ r = .real v
  | .wordDelete x | .documentDelete x | .matcherDelete x | .matchResultsDelete x | .corpusDelete x =>
    r = .nothing ∧ k.Gone k' x

/-- A program: the calls it made with what they returned, and the heap they led to. -/
inductive Trace [Build] [Icu] [Runtime] [Fp] : List (CCall × CRet) → Heap → Prop
  | start : Trace [] ⟨[]⟩
  | call {cs h c h' r} : Trace cs h → c.run h = .ok (h', r) → Trace (cs ++ [(c, r)]) h'

/-- A program of allowed calls, of which each returned what the rules say; what the program knows in the end. -/
inductive Explains [Build] [Icu] [Fp] : List (CCall × CRet) → Known → Prop
  | start : Explains [] []
  | call {cs k c r k'} : Explains cs k → k.Allows c → k.Learns c r k' → Explains (cs ++ [(c, r)]) k'

/-- Reading the results at some places, one after the other, gives these documents. -/
inductive Reads [Build] [Icu] [Runtime] [Fp] (x : Handle) : Heap → List Nat → List DocumentID → Prop
  | nil {h} : Reads x h [] []
  | cons {h h' i d is ds} : (CCall.matchResultsGetId x i).run h = .ok (h', .number d) → Reads x h' is ds → Reads x h (i :: is) (d :: ds)

end Columbus.Spec
