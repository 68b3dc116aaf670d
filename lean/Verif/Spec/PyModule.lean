import Verif.Model.PyModule
import Verif.Spec.CTexts
/-
Specification of Python programs in terms of the texts they pass: what a program knows about its objects, which calls it may
make, what each call returns and what it changes.
-/

namespace Columbus.Spec
open Columbus Py

/-- The field whose name has the letters `f` has the text `t`, added under the name `g`: no other text was added for it later. -/
def Described.Field [Icu] (d : Described) (f : Word) (g t : Bytes) : Prop :=
  ∃ pre post, d.texts = pre ++ (g, t) :: post ∧ LowerLetters g f ∧ ∀ p ∈ post, ¬ LowerLetters p.1 f

/-- `d'` is `d` with another text in the field. -/
def Described.Replaced [Icu] (d d' : Described) (f : Word) (t t' : Bytes) : Prop :=
  ∃ pre g post, d.texts = pre ++ (g, t) :: post ∧ LowerLetters g f ∧ (∀ p ∈ post, ¬ LowerLetters p.1 f) ∧
    d' = ⟨d.id, pre ++ (g, t') :: post⟩

namespace Py

/-- What the library sees of a string: what is before the first NUL. -/
def Seen (s t : Bytes) : Prop := 0 ∉ t ∧ (s = t ∨ ∃ u, s = t ++ 0 :: u)

/-- What a program knows about an object: of a word, a text it was made from; of a list, those of its words; of a document, its
texts; of a corpus, the documents as they were when they were added; of a matcher, the documents as they were when they were
indexed, the settings, the weights and how the operating system answers; of results, their ranking. -/
inductive Thing where
  | word (t : Bytes)
  | list (ts : List Bytes)
  | document (d : Described)
  | corpus (ds : List Described)
  | results (l : List Result)
  | matcher (os : Nat → Bool) (ds : List Described) (ops : List ErrOp) (ws : List (Bytes × ℚ))
  | errors (ops : List ErrOp)
  | weights (ws : List (Bytes × ℚ))

/-- All objects, and the items taken: of which list, and a text of the word, `none` once the list was changed. -/
structure Known where
  things : List Thing
  items : List (ListRef × Option Bytes)

namespace Known
variable [Icu]

def Is (k : Known) (n : Nat) (t : Thing) : Prop := k.things[n]? = some t

def Word (k : Known) : WordRef → Bytes → Prop
  | .obj n, t => k.Is n (.word t)
  | .item j, t => ∃ l, k.items[j]? = some (l, some t)

/-- The words of a list. Those of the text of a document are its maximal runs without blanks. -/
def Words (k : Known) : ListRef → List Bytes → Prop
  | .obj n, ts => k.Is n (.list ts)
  | .text n f, ts => ∃ d g t, k.Is n (.document d) ∧ d.Field f g t ∧ Tokens t ts

def Errors (k : Known) : PartRef → List ErrOp → Prop
  | .obj n, ops => k.Is n (.errors ops)
  | .ofMatcher n, ops => ∃ os ds ws, k.Is n (.matcher os ds ops ws)

def Weights (k : Known) : PartRef → List (Bytes × ℚ) → Prop
  | .obj n, ws => k.Is n (.weights ws)
  | .ofMatcher n, ws => ∃ os ds ops, k.Is n (.matcher os ds ops ws)

/-- A new object. -/
def New (k k' : Known) (r : Ret) (t : Thing) : Prop := r = .object k.things.length ∧ k' = { k with things := k.things ++ [t] }

/-- The object is now `t`. -/
def Now (k k' : Known) (n : Nat) (t : Thing) : Prop := k' = { k with things := k.things.set n t }

/-- The items of the list must not be used any more. -/
def forget (k : Known) (l : ListRef) : Known := { k with items := k.items.map fun p => if p.1 = l then (p.1, none) else p }

def NowErrors (k k' : Known) : PartRef → List ErrOp → Prop
  | .obj n, ops => k.Now k' n (.errors ops)
  | .ofMatcher n, ops => ∃ os ds ops' ws, k.Is n (.matcher os ds ops' ws) ∧ k.Now k' n (.matcher os ds ops ws)

def NowWeights (k k' : Known) : PartRef → List (Bytes × ℚ) → Prop
  | .obj n, ws => k.Now k' n (.weights ws)
  | .ofMatcher n, ws => ∃ os ds ops ws', k.Is n (.matcher os ds ops ws') ∧ k.Now k' n (.matcher os ds ops ws)

/-- The text is of moderate length. -/
def Short (t : Bytes) : Prop := t.length ≤ 10000000

/-- The calls a program may make: it has the objects and they are of the right class, items are used only until their list
changes, texts are of moderate length, names of fields and words added to a text of a document are not empty, results are not
added to themselves, the end deletion error is between 0 and 100, and there is memory for the texts to be indexed. -/
def Allows (k : Known) : Call → Prop
  | .wordNew s => ∀ t, Seen s t → Short t
  | .wordString w | .wordLen w => ∃ t, k.Word w t
  | .listNew | .documentNew _ | .corpusNew | .resultsNew | .matcherNew _ | .errorsNew | .weightsNew | .getDefaultError
  | .getDefaultEndDeletionError => True
  | .listCopy l | .listLen l | .listGet l _ => ∃ ts, k.Words l ts
  | .listAdd (.obj n) w => (∃ ts, k.Is n (.list ts)) ∧ ∃ u, k.Word w u
  | .listAdd (.text n f) w => ∃ d g t u, k.Is n (.document d) ∧ d.Field f g t ∧ k.Word w u ∧ u ≠ [] ∧ Short (t ++ 0x20 :: u)
  | .split s => ∀ t, Seen s t → Short t
  | .documentCopy n | .fieldCount n | .getId n => ∃ d, k.Is n (.document d)
  | .getText n w => (∃ d, k.Is n (.document d)) ∧ ∃ t, k.Word w t
  | .addText n w s => (∃ d, k.Is n (.document d)) ∧ (∃ t, k.Word w t ∧ t ≠ []) ∧ ∀ t, Seen s t → Short t
  | .corpusSize n => ∃ ds, k.Is n (.corpus ds)
  | .corpusAdd n d => (∃ ds, k.Is n (.corpus ds)) ∧ ∃ D, k.Is d (.document D)
  | .resultsAdd n m => n ≠ m ∧ (∃ l, k.Is n (.results l)) ∧ ∃ l, k.Is m (.results l)
  | .resultsId n _ | .resultsRelevancy n _ | .resultsLen n => ∃ l, k.Is n (.results l)
  | .index n c => ∃ os ds ops ws cs, k.Is n (.matcher os ds ops ws) ∧ k.Is c (.corpus cs) ∧
    ¬ StorageRefused os (2 * describedLength (ds ++ cs))
  | .search n s => (∃ os ds ops ws, k.Is n (.matcher os ds ops ws)) ∧ ∀ t, Seen s t → Short t
  | .getErrorvalues n | .getIndexweights n => ∃ os ds ops ws, k.Is n (.matcher os ds ops ws)
  | .addStandardErrors p _ | .setSubstringMode p | .clearErrors p | .setError p _ _ _ | .getSubstituteError p _ _ =>
    ∃ ops, k.Errors p ops
  | .setEndDeletionError p v => (∃ ops, k.Errors p ops) ∧ 0 ≤ v ∧ v ≤ 100
  | .setWeight p w _ | .getWeight p w => (∃ ws, k.Weights p ws) ∧ ∃ t, k.Word w t

/-- The number of different names of fields. -/
def FieldCount (d : Described) (c : Nat) : Prop :=
  ∃ fs : List Columbus.Word, fs.Nodup ∧ fs.length = c ∧ ∀ f, f ∈ fs ↔ ∃ g t, d.Field f g t

/-- What a call returns and what the program knows after it. -/
def Learns [Build] [Fp] (k : Known) (c : Call) (r : Ret) (k' : Known) : Prop :=
  match c with
  | .wordNew s => ∃ t, Seen s t ∧ (WellFormed t ∧ (∀ b ∈ t, ¬ IsBlank b) → k.New k' r (.word t)) ∧
    (¬ WellFormed t → r = .runtimeError ∧ k' = k) ∧ (WellFormed t ∧ (∃ b ∈ t, IsBlank b) → r = .valueError ∧ k' = k)
  | .wordString w => k' = k ∧ ∃ t s, k.Word w t ∧ LowerText t s ∧ r = .text s
  | .wordLen w => k' = k ∧ ∃ t x, k.Word w t ∧ LowerLetters t x ∧ r = .number x.length
  | .listNew => k.New k' r (.list [])
  | .listCopy l => ∃ ts, k.Words l ts ∧ k.New k' r (.list ts)
  | .listLen l => k' = k ∧ ∃ ts, k.Words l ts ∧ r = .number ts.length
  | .listGet l i => ∃ ts, k.Words l ts ∧
    (∀ t, ts[i]? = some t → r = .item k.items.length ∧ k' = { k with items := k.items ++ [(l, some t)] }) ∧
    (ts[i]? = none → r = .indexError ∧ k' = k)
  | .listAdd (.obj n) w => r = .none ∧ ∃ ts u, k.Is n (.list ts) ∧ k.Word w u ∧ (k.forget (.obj n)).Now k' n (.list (ts ++ [u]))
  | .listAdd (.text n f) w => r = .none ∧ ∃ d d' t u, k.Is n (.document d) ∧ k.Word w u ∧ d.Replaced d' f t (t ++ 0x20 :: u) ∧
    (k.forget (.text n f)).Now k' n (.document d')
  | .split s => ∃ t, Seen s t ∧ (WellFormed t → ∃ ts, Tokens t ts ∧ k.New k' r (.list ts)) ∧
    (¬ WellFormed t → r = .runtimeError ∧ k' = k)
  | .documentNew id => k.New k' r (.document ⟨id, []⟩)
  | .documentCopy n => ∃ d, k.Is n (.document d) ∧ k.New k' r (.document d)
  | .fieldCount n => k' = k ∧ ∃ d c, k.Is n (.document d) ∧ FieldCount d c ∧ r = .number c
  | .getId n => k' = k ∧ ∃ d, k.Is n (.document d) ∧ r = .number d.id
  | .getText n w => k' = k ∧ ∃ d u f, k.Is n (.document d) ∧ k.Word w u ∧ LowerLetters u f ∧
    ((∃ g t, d.Field f g t) → r = .list (.text n f)) ∧ ((¬ ∃ g t, d.Field f g t) → r = .valueError)
  | .addText n w s => ∃ d u f t, k.Is n (.document d) ∧ k.Word w u ∧ LowerLetters u f ∧ Seen s t ∧
    (WellFormed t → r = .none ∧ (k.forget (.text n f)).Now k' n (.document ⟨d.id, d.texts ++ [(u, t)]⟩)) ∧
    (¬ WellFormed t → r = .runtimeError ∧ k' = k)
  | .corpusNew => k.New k' r (.corpus [])
  | .corpusSize n => k' = k ∧ ∃ ds, k.Is n (.corpus ds) ∧ r = .number ds.length
  | .corpusAdd n d => r = .none ∧ ∃ ds D, k.Is n (.corpus ds) ∧ k.Is d (.document D) ∧ k.Now k' n (.corpus (ds ++ [D]))
  | .resultsNew => k.New k' r (.results [])
  | .resultsAdd n m => r = .none ∧ ∃ a b l, k.Is n (.results a) ∧ k.Is m (.results b) ∧ IsRanking (a ++ b) l ∧ k.Now k' n (.results l)
  | .resultsId n i => k' = k ∧ ∃ l, k.Is n (.results l) ∧ r = (match l[i]? with | some x => .number x.2 | none => .indexError)
  | .resultsRelevancy n i => k' = k ∧ ∃ l, k.Is n (.results l) ∧ r = (match l[i]? with | some x => .real x.1 | none => .indexError)
  | .resultsLen n => k' = k ∧ ∃ l, k.Is n (.results l) ∧ r = .number l.length
  | .matcherNew os => (os 1024 = true → k.New k' r (.matcher os [] [] [])) ∧ (os 1024 = false → r = .runtimeError ∧ k' = k)
  | .index n c => r = .none ∧ ∃ os ds ops ws cs, k.Is n (.matcher os ds ops ws) ∧ k.Is c (.corpus cs) ∧
    k.Now k' n (.matcher os (ds ++ cs) ops ws)
  | .search n s => ∃ os ds ops ws t, k.Is n (.matcher os ds ops ws) ∧ Seen s t ∧
    (WellFormed t → ∃ l, Lists ds ops t (l.map (·.2)) ∧ l.Pairwise RankOrder ∧ k.New k' r (.results l)) ∧
    (¬ WellFormed t → r = .runtimeError ∧ k' = k)
  | .getErrorvalues n | .getIndexweights n => k' = k ∧ r = .part (.ofMatcher n)
  | .errorsNew => k.New k' r (.errors [])
  | .addStandardErrors p data => ∃ ops, k.Errors p ops ∧ k.NowErrors k' p (ops ++ [.addStandardErrors data]) ∧
    (((ErrOp.addStandardErrors data).run (afterOps ops)).2 = none ∧ r = .none ∨
      ((ErrOp.addStandardErrors data).run (afterOps ops)).2 = some .runtimeError ∧ r = .runtimeError ∨
      ((ErrOp.addStandardErrors data).run (afterOps ops)).2 = some .invalidArgument ∧ r = .valueError)
  | .setSubstringMode p => r = .none ∧ ∃ ops, k.Errors p ops ∧ k.NowErrors k' p (ops ++ [.setSubstringMode])
  | .setEndDeletionError p v => r = .none ∧ ∃ ops, k.Errors p ops ∧ k.NowErrors k' p (ops ++ [.setEndDeletionError v])
  | .clearErrors p => r = .none ∧ ∃ ops, k.Errors p ops ∧ k.NowErrors k' p (ops ++ [.clearErrors])
  | .setError _ _ _ _ | .getSubstituteError _ _ _ => k' = k ∧ r = .argumentError
  | .getDefaultError => k' = k ∧ r = .int 100
  | .getDefaultEndDeletionError => k' = k ∧ r = .int 15
  | .weightsNew => k.New k' r (.weights [])
  | .setWeight p w v => r = .none ∧ ∃ ws t, k.Weights p ws ∧ k.Word w t ∧ k.NowWeights k' p (ws ++ [(t, v)])
  | .getWeight p w => k' = k ∧ ∃ ws t v, k.Weights p ws ∧ k.Word w t ∧ WeightIs ws t v ∧ r = .real v

end Known

/-- A program: the calls it made with what they returned, and the world they led to. -/
inductive Trace [Build] [Icu] [Runtime] [Fp] [Python.Growth] : List (Call × Ret) → World → Prop
  | start : Trace [] ⟨[], []⟩
  | call {cs w c w' r} : Trace cs w → c.run w = .ok (w', r) → Trace (cs ++ [(c, r)]) w'

/-- A program of allowed calls, of which each returned what the rules say; what the program knows in the end. -/
inductive Explains [Build] [Icu] [Fp] : List (Call × Ret) → Known → Prop
  | start : Explains [] ⟨[], []⟩
  | call {cs k c r k'} : Explains cs k → k.Allows c → k.Learns c r k' → Explains (cs ++ [(c, r)]) k'

/-- Further calls, with what they return. -/
inductive Runs [Build] [Icu] [Runtime] [Fp] [Python.Growth] : World → List (Call × Ret) → World → Prop
  | nil {w} : Runs w [] w
  | cons {w c w' r cs w''} : c.run w = .ok (w', r) → Runs w' cs w'' → Runs w ((c, r) :: cs) w''

/-- The calls that read results. -/
def Reading (n : Nat) : Call → Prop
  | .resultsId m _ | .resultsRelevancy m _ | .resultsLen m => m = n
  | _ => False

/-- What reading a ranking gives: past the end an IndexError. -/
def readAnswer (l : List Result) : Call → Ret
  | .resultsId _ i => match l[i]? with | some x => .number x.2 | none => .indexError
  | .resultsRelevancy _ i => match l[i]? with | some x => .real x.1 | none => .indexError
  | _ => .number l.length

end Py
end Columbus.Spec
