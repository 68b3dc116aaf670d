import Verif.Model.CApi
import Verif.Spec.Matcher
/-
Specification of the C interface: calls, executions and when they are valid.
-/

namespace Columbus.Spec
open Columbus CApi

/-- The calls of the library that set up costs without numbers chosen by the caller, and end deletion errors of no more than
the default error. -/
def ErrOp.Preset : ErrOp → Prop
  | .clearErrors | .addAccents _ _ | .addKeyboardErrors | .addNumberpadErrors | .addStandardErrors _ | .setSubstringMode => True
  | .setEndDeletionError v => 0 ≤ v ∧ v ≤ 100
  | _ => False

/-- The functions of the C interface with their arguments. For `col_matcher_new` the answers of the operating system, for
`col_error_values_add_standard_errors` the data files. -/
inductive CCall where
  | wordNew (s : Bytes)
  | wordDelete (w : Handle)
  | wordLength (w : Handle)
  | wordAsUtf8 (w : Handle) (n : Nat)
  | documentNew (id : DocumentID)
  | documentDelete (d : Handle)
  | documentGetId (d : Handle)
  | documentAddText (d f : Handle) (s : Bytes)
  | matcherNew (os : Nat → Bool)
  | matcherDelete (m : Handle)
  | matcherIndex (m c : Handle)
  | matcherMatch (m : Handle) (s : Bytes)
  | matcherGetErrorValues (m : Handle)
  | matcherGetIndexWeights (m : Handle)
  | matchResultsNew
  | matchResultsDelete (r : Handle)
  | matchResultsSize (r : Handle)
  | matchResultsGetId (r : Handle) (i : Nat)
  | matchResultsGetRelevancy (r : Handle) (i : Nat)
  | corpusNew
  | corpusDelete (c : Handle)
  | corpusAddDocument (c d : Handle)
  | addStandardErrors (data : ErrorValues.DataDir) (e : Handle)
  | setSubstringMode (e : Handle)
  | setWeight (w f : Handle) (v : ℚ)
  | getWeight (w f : Handle)

/-- What a call returns. -/
inductive CRet where
  | nothing
  | handle (h : Handle)
  | number (n : Nat)
  | real (q : ℚ)
  | text (s : Option Bytes)

/-- Carry out a call. -/
def CCall.run [Build] [Icu] [Runtime] [Fp] (h : Heap) : CCall → M (Heap × CRet)
  | .wordNew s => (CApi.wordNew h s).map fun x => (x.1, .handle x.2)
  | .wordDelete w => (CApi.wordDelete h w).map fun x => (x, .nothing)
  | .wordLength w => (CApi.wordLength h w).map fun x => (h, .number x)
  | .wordAsUtf8 w n => (CApi.wordAsUtf8 h w n).map fun x => (h, .text x)
  | .documentNew id => (CApi.documentNew h id).map fun x => (x.1, .handle x.2)
  | .documentDelete d => (CApi.documentDelete h d).map fun x => (x, .nothing)
  | .documentGetId d => (CApi.documentGetId h d).map fun x => (h, .number x)
  | .documentAddText d f s => (CApi.documentAddText h d f s).map fun x => (x, .nothing)
  | .matcherNew os => (CApi.matcherNew h os).map fun x => (x.1, .handle x.2)
  | .matcherDelete m => (CApi.matcherDelete h m).map fun x => (x, .nothing)
  | .matcherIndex m c => (CApi.matcherIndex h m c).map fun x => (x, .nothing)
  | .matcherMatch m s => (CApi.matcherMatch h m s).map fun x => (x.1, .handle x.2)
  | .matcherGetErrorValues m => (CApi.matcherGetErrorValues h m).map fun x => (h, .handle x)
  | .matcherGetIndexWeights m => (CApi.matcherGetIndexWeights h m).map fun x => (h, .handle x)
  | .matchResultsNew => (CApi.matchResultsNew h).map fun x => (x.1, .handle x.2)
  | .matchResultsDelete r => (CApi.matchResultsDelete h r).map fun x => (x, .nothing)
  | .matchResultsSize r => (CApi.matchResultsSize h r).map fun x => (h, .number x)
  | .matchResultsGetId r i => (CApi.matchResultsGetId h r i).map fun x => (x.1, .number x.2)
  | .matchResultsGetRelevancy r i => (CApi.matchResultsGetRelevancy h r i).map fun x => (x.1, .real x.2)
  | .corpusNew => (CApi.corpusNew h).map fun x => (x.1, .handle x.2)
  | .corpusDelete c => (CApi.corpusDelete h c).map fun x => (x, .nothing)
  | .corpusAddDocument c d => (CApi.corpusAddDocument h c d).map fun x => (x, .nothing)
  | .addStandardErrors data e => (CApi.addStandardErrors h data e).map fun x => (x, .nothing)
  | .setSubstringMode e => (CApi.setSubstringMode h e).map fun x => (x, .nothing)
  | .setWeight w f v => (CApi.setWeight h w f v).map fun x => (x, .nothing)
  | .getWeight w f => (CApi.getWeight h w f).map fun x => (h, .real x)

/-- The handle leads to a live object. -/
def Heap.Holds (h : Heap) (x : Handle) (o : Obj) : Prop := ∃ n, x = .obj n ∧ h.cells[n]? = some (some o)

/-- A C string of moderate length: no NUL inside. -/
def CString (s : Bytes) : Prop := 0 ∉ s ∧ s.length ≤ 10000000

/-- The rules for calling: handles lead to live objects of the right kind (null may be deleted); texts are C strings of
moderate length; the buffer for a word is not exactly as long as its text (C05); and the memory for indexing is
granted. -/
def CCall.Valid [Build] (h : Heap) : CCall → Prop
  | .wordNew s => CString s
  | .wordDelete x => x = .null ∨ ∃ w, Heap.Holds h x (.word w)
  | .wordLength x => ∃ w, Heap.Holds h x (.word w)
  | .wordAsUtf8 x n => ∃ w, Heap.Holds h x (.word w) ∧ ∀ cps s, Utf16 w cps → Utf8 s cps → n ≠ s.length
  | .documentNew _ => True
  | .documentDelete x => x = .null ∨ ∃ d, Heap.Holds h x (.document d)
  | .documentGetId x => ∃ d, Heap.Holds h x (.document d)
  | .documentAddText x y s => (∃ d, Heap.Holds h x (.document d)) ∧ (∃ w, Heap.Holds h y (.word w)) ∧ CString s
  | .matcherNew _ => True
  | .matcherDelete x => x = .null ∨ ∃ m, Heap.Holds h x (.matcher m)
  | .matcherIndex x y => ∃ m c, Heap.Holds h x (.matcher m) ∧ Heap.Holds h y (.corpus c) ∧ (m.index c).2 ≠ some .runtimeError
  | .matcherMatch x s => (∃ m, Heap.Holds h x (.matcher m)) ∧ CString s
  | .matcherGetErrorValues x => ∃ m, Heap.Holds h x (.matcher m)
  | .matcherGetIndexWeights x => ∃ m, Heap.Holds h x (.matcher m)
  | .matchResultsNew => True
  | .matchResultsDelete x => x = .null ∨ ∃ r, Heap.Holds h x (.results r)
  | .matchResultsSize x => ∃ r, Heap.Holds h x (.results r)
  | .matchResultsGetId x _ => ∃ r, Heap.Holds h x (.results r)
  | .matchResultsGetRelevancy x _ => ∃ r, Heap.Holds h x (.results r)
  | .corpusNew => True
  | .corpusDelete x => x = .null ∨ ∃ c, Heap.Holds h x (.corpus c)
  | .corpusAddDocument x y => (∃ c, Heap.Holds h x (.corpus c)) ∧ ∃ d, Heap.Holds h y (.document d)
  | .addStandardErrors _ x => ∃ n m, x = .errorsOf n ∧ Heap.Holds h (.obj n) (.matcher m)
  | .setSubstringMode x => ∃ n m, x = .errorsOf n ∧ Heap.Holds h (.obj n) (.matcher m)
  | .setWeight x y _ => (∃ n m, x = .weightsOf n ∧ Heap.Holds h (.obj n) (.matcher m)) ∧ ∃ w, Heap.Holds h y (.word w)
  | .getWeight x y => (∃ n m, x = .weightsOf n ∧ Heap.Holds h (.obj n) (.matcher m)) ∧ ∃ w, Heap.Holds h y (.word w)

/-- The handles of the call lead to live objects of the right kind; null may be deleted. -/
def CCall.Handles (h : Heap) : CCall → Prop
  | .wordNew _ | .documentNew _ | .matcherNew _ | .matchResultsNew | .corpusNew => True
  | .wordDelete x => x = .null ∨ ∃ w, Heap.Holds h x (.word w)
  | .documentDelete x => x = .null ∨ ∃ d, Heap.Holds h x (.document d)
  | .matcherDelete x => x = .null ∨ ∃ m, Heap.Holds h x (.matcher m)
  | .matchResultsDelete x => x = .null ∨ ∃ r, Heap.Holds h x (.results r)
  | .corpusDelete x => x = .null ∨ ∃ c, Heap.Holds h x (.corpus c)
  | .wordLength x | .wordAsUtf8 x _ => ∃ w, Heap.Holds h x (.word w)
  | .documentGetId x => ∃ d, Heap.Holds h x (.document d)
  | .documentAddText x y _ => (∃ d, Heap.Holds h x (.document d)) ∧ ∃ w, Heap.Holds h y (.word w)
  | .matcherIndex x y => (∃ m, Heap.Holds h x (.matcher m)) ∧ ∃ c, Heap.Holds h y (.corpus c)
  | .matcherMatch x _ | .matcherGetErrorValues x | .matcherGetIndexWeights x => ∃ m, Heap.Holds h x (.matcher m)
  | .matchResultsSize x | .matchResultsGetId x _ | .matchResultsGetRelevancy x _ => ∃ r, Heap.Holds h x (.results r)
  | .corpusAddDocument x y => (∃ c, Heap.Holds h x (.corpus c)) ∧ ∃ d, Heap.Holds h y (.document d)
  | .addStandardErrors _ x | .setSubstringMode x => ∃ n m, x = .errorsOf n ∧ Heap.Holds h (.obj n) (.matcher m)
  | .setWeight x y _ | .getWeight x y =>
    (∃ n m, x = .weightsOf n ∧ Heap.Holds h (.obj n) (.matcher m)) ∧ ∃ w, Heap.Holds h y (.word w)

/-- A C program: any sequence of valid calls; the heap it leads to. -/
inductive CRan [Build] [Icu] [Runtime] [Fp] : Heap → Prop
  | start : CRan ⟨[]⟩
  | call {h h' : Heap} {c : CCall} {r : CRet} : CRan h → c.Valid h → c.run h = .ok (h', r) → CRan h'

/-- The object that the call may change or delete. -/
def CCall.target : CCall → Handle
  | .wordDelete x | .documentDelete x | .documentAddText x _ _ | .matcherDelete x | .matcherIndex x _ | .matcherMatch x _
  | .matchResultsDelete x | .matchResultsGetId x _ | .matchResultsGetRelevancy x _ | .corpusDelete x
  | .corpusAddDocument x _ => x
  | .addStandardErrors _ (.errorsOf n) | .setSubstringMode (.errorsOf n) => .obj n
  | .setWeight (.weightsOf n) _ _ => .obj n
  | _ => .null

/-- A new object was made and its handle returned; nothing else changed. -/
def Made (h h' : Heap) (r : CRet) (o : Obj) : Prop := r = .handle (.obj h.cells.length) ∧ h'.cells = h.cells ++ [some o]

/-- The object of the handle changed to `o`, and nothing else. -/
def Changed (h h' : Heap) (x : Handle) (o : Obj) : Prop := ∃ n, x = .obj n ∧ h'.cells = h.cells.set n (some o)

/-- The object of the handle was deleted, and nothing else; deleting null does nothing. -/
def Deleted (h h' : Heap) (x : Handle) : Prop := (x = .null ∧ h' = h) ∨ ∃ n, x = .obj n ∧ h'.cells = h.cells.set n none

/-- What the C++ counterpart of a call does and returns; with the sentinel where the counterpart throws. -/
def CCall.Mirrors [Build] [Icu] [Runtime] [Fp] (h h' : Heap) (r : CRet) : CCall → Prop
  | .wordNew s => match Word.ofUtf8 s with
    | .ok w => Made h h' r (.word w)
    | .error _ => r = .handle .null ∧ h' = h
  | .wordLength x => h' = h ∧ ∃ w, Heap.Holds h x (.word w) ∧ r = .number w.length
  | .wordAsUtf8 x n => h' = h ∧ ∃ w, Heap.Holds h x (.word w) ∧ match Word.toUtf8 w n with
    | .ok b => r = .text (some b)
    | .error _ => r = .text none
  | .documentNew id => Made h h' r (.document (Document.new id))
  | .documentGetId x => h' = h ∧ ∃ d, Heap.Holds h x (.document d) ∧ r = .number d.id
  | .documentAddText x y s => r = .nothing ∧ ∃ d w, Heap.Holds h x (.document d) ∧ Heap.Holds h y (.word w) ∧
    match d.addTextUtf8 w s with
    | .ok d' => Changed h h' x (.document d')
    | .error _ => h' = h
  | .matcherNew os => match Matcher.new os with
    | .ok m => Made h h' r (.matcher m)
    | .error _ => r = .handle .null ∧ h' = h
  | .matcherIndex x y => r = .nothing ∧ ∃ m c, Heap.Holds h x (.matcher m) ∧ Heap.Holds h y (.corpus c) ∧
    Changed h h' x (.matcher (m.index c).1)
  | .matcherMatch x s => ∃ m h1, Heap.Holds h x (.matcher m) ∧ Changed h h1 x (.matcher (m.matchUtf8 s).1) ∧
    match (m.matchUtf8 s).2 with
    | .ok res => Made h1 h' r (.results res)
    | .error _ => r = .handle .null ∧ h' = h1
  | .matcherGetErrorValues x => h' = h ∧ ∃ n, x = .obj n ∧ r = .handle (.errorsOf n)
  | .matcherGetIndexWeights x => h' = h ∧ ∃ n, x = .obj n ∧ r = .handle (.weightsOf n)
  | .matchResultsNew => Made h h' r (.results MatchResults.new)
  | .matchResultsSize x => h' = h ∧ ∃ res, Heap.Holds h x (.results res) ∧ r = .number res.size
  | .matchResultsGetId x i => ∃ res, Heap.Holds h x (.results res) ∧ match res.getDocumentID i with
    | .ok (res', id) => r = .number id ∧ Changed h h' x (.results res')
    | .error _ => r = .number (2^64 - 1) ∧ h' = h
  | .matchResultsGetRelevancy x i => ∃ res, Heap.Holds h x (.results res) ∧ match res.getRelevancy i with
    | .ok (res', v) => r = .real v ∧ Changed h h' x (.results res')
    | .error _ => r = .real (-1) ∧ h' = h
  | .corpusNew => Made h h' r (.corpus [])
  | .corpusAddDocument x y => r = .nothing ∧ ∃ c d, Heap.Holds h x (.corpus c) ∧ Heap.Holds h y (.document d) ∧
    Changed h h' x (.corpus (Corpus.addDocument c d))
  | .addStandardErrors data x => r = .nothing ∧ ∃ n m, x = .errorsOf n ∧ Heap.Holds h (.obj n) (.matcher m) ∧
    Changed h h' (.obj n) (.matcher { m with e := (m.e.addStandardErrors data).1 })
  | .setSubstringMode x => r = .nothing ∧ ∃ n m, x = .errorsOf n ∧ Heap.Holds h (.obj n) (.matcher m) ∧
    Changed h h' (.obj n) (.matcher { m with e := m.e.setSubstringMode })
  | .setWeight x y v => r = .nothing ∧ ∃ n m w, x = .weightsOf n ∧ Heap.Holds h (.obj n) (.matcher m) ∧ Heap.Holds h y (.word w) ∧
    Changed h h' (.obj n) (.matcher { m with weights := IndexWeights.setWeight m.weights w v })
  | .getWeight x y => h' = h ∧ ∃ n m w, x = .weightsOf n ∧ Heap.Holds h (.obj n) (.matcher m) ∧ Heap.Holds h y (.word w) ∧
    r = .real (IndexWeights.getWeight m.weights w)
  | .wordDelete x | .documentDelete x | .matcherDelete x | .matchResultsDelete x | .corpusDelete x =>
    r = .nothing ∧ Deleted h h' x

/-- Is it the call that is wrong (C62)? -/
def CCall.IsRelevancy : CCall → Prop
  | .matchResultsGetRelevancy _ _ => True
  | _ => False

end Columbus.Spec
