import Verif.Model.Word
/-
src/ErrorValues.cc and include/ErrorValues.hh: the error lookup system.
-/

namespace Columbus

/-- `LUT_BITS`, `LUT_LETTERS`, `LUT_SIZE` (src/ErrorValues.cc 41-43). -/
def LUT_BITS : Nat := 9
def LUT_LETTERS : Nat := 1 <<< LUT_BITS
def LUT_SIZE : Nat := LUT_LETTERS * LUT_LETTERS

/-- `LUT_OFFSET` (src/ErrorValues.cc 44). -/
def lutOffset (l1 l2 : Nat) : Nat := (l1 <<< LUT_BITS) ||| l2

/-- Constants of `class ErrorValues` (include/ErrorValues.hh 37-42). -/
def DEFAULT_ERROR : Int := 100
def DEFAULT_GROUP_ERROR : Int := 30
def DEFAULT_TYPO_ERROR : Int := 30
def DEFAULT_SUBSTRING_END_DELETION_ERROR : Int := 15
def DEFAULT_SUBSTRING_START_INSERTION_ERROR : Int := 15
def DEFAULT_SUBSTRING_START_LENGTH : Nat := 3

/-- `ErrorValues` with its private part (include/ErrorValues.hh 44-52, src/ErrorValues.cc 48-56).
`groupErrors` is a `vector<unsigned int>` in the code; an `int` stored there and converted back is unchanged, so the
model keeps the `int`. `lut` is the array of `LUT_SIZE` integers. -/
structure ErrorValues where
  insertionError : Int
  deletionError : Int
  endDeletionError : Int
  startInsertionError : Int
  substituteError : Int
  transposeError : Int
  substringStartLimit : Nat
  singleErrors : SMap (Letter × Letter) Int
  groupMap : SMap Letter Nat
  groupErrors : List Int
  lut : Nat → Int

namespace ErrorValues

/-- Comparator of `map<pair<Letter,Letter>,int>` (src/ErrorValues.cc 49). -/
def ltLL : Letter × Letter → Letter × Letter → Bool := ltPair ltLetter ltLetter

/-- Contents of the table after `clearLUT` (src/ErrorValues.cc 74-80): offset `i << LUT_BITS | j` holds 0 when `i = j`
and `substituteError` otherwise. The nested loops write every offset once. -/
def clearLUT (e : ErrorValues) : ErrorValues :=
  { e with lut := fun o => if o / LUT_LETTERS = o % LUT_LETTERS then 0 else e.substituteError }

/-- `ErrorValues::ErrorValues` (src/ErrorValues.cc 58-68). -/
def new : ErrorValues :=
  clearLUT {
    insertionError := DEFAULT_ERROR
    deletionError := DEFAULT_ERROR
    endDeletionError := DEFAULT_ERROR
    startInsertionError := DEFAULT_ERROR
    substituteError := DEFAULT_ERROR
    transposeError := DEFAULT_ERROR
    substringStartLimit := 0
    singleErrors := []
    groupMap := []
    groupErrors := []
    lut := fun _ => 0 }

/-- Store to `p->lut[o]`, out of bounds above `LUT_SIZE`. -/
def lutStore (e : ErrorValues) (o : Nat) (v : Int) : M ErrorValues :=
  if o < LUT_SIZE then .ok { e with lut := fun x => if x = o then v else e.lut x } else .error .ub

/-- `ErrorValues::addToLUT` (src/ErrorValues.cc 269-274). -/
def addToLUT (e : ErrorValues) (l1 l2 : Letter) (value : Int) : M ErrorValues :=
  if l1.toNat < LUT_LETTERS ∧ l2.toNat < LUT_LETTERS then do
    let e ← e.lutStore (lutOffset l1.toNat l2.toNat) value
    e.lutStore (lutOffset l2.toNat l1.toNat) value
  else .ok e

/-- The letters in the order in which `setError` and `substituteErrorSlow` use them (src/ErrorValues.cc 83-88,
103-108). -/
def ordered (l1 l2 : Letter) : Letter × Letter :=
  if l2.toNat < l1.toNat then (l2, l1) else (l1, l2)

/-- `ErrorValues::setError` (src/ErrorValues.cc 82-91). -/
def setError (e : ErrorValues) (l1 l2 : Letter) (error : Int) : M ErrorValues :=
  let p := ordered l1 l2
  let e := { e with singleErrors := SMap.set ltLL e.singleErrors p error }
  e.addToLUT p.1 p.2 error

/-- `ErrorValues::substituteErrorSlow` (src/ErrorValues.cc 100-125). -/
def substituteErrorSlow (e : ErrorValues) (l1 l2 : Letter) : M Int :=
  if l1 = l2 then .ok 0
  else
    let p := ordered l1 l2
    match SMap.find ltLL e.singleErrors p with
    | some v => .ok v
    | none =>
      match SMap.find ltLetter e.groupMap p.2 with
      | some g1 =>
        match SMap.find ltLetter e.groupMap p.1 with
        | some g2 =>
          if g1 = g2 then
            match e.groupErrors[g1]? with
            | some v => .ok v
            | none => .error .ub
          else .ok e.substituteError
        | none => .ok e.substituteError
      | none => .ok e.substituteError

/-- `ErrorValues::getSubstituteError` (src/ErrorValues.cc 93-98). -/
def getSubstituteError (e : ErrorValues) (l1 l2 : Letter) : M Int :=
  if l1.toNat < LUT_LETTERS ∧ l2.toNat < LUT_LETTERS then
    let o := lutOffset l1.toNat l2.toNat
    if o < LUT_SIZE then .ok (e.lut o) else .error .ub
  else e.substituteErrorSlow l1 l2

/-- `ErrorValues::clearErrors` (src/ErrorValues.cc 127-132). -/
def clearErrors (e : ErrorValues) : ErrorValues :=
  clearLUT { e with singleErrors := [], groupErrors := [], groupMap := [] }

/-- `ErrorValues::isInGroup` (src/ErrorValues.cc 163-165). -/
def isInGroup (e : ErrorValues) (l : Letter) : Bool := (SMap.find ltLetter e.groupMap l).isSome

/-- The loop of `setGroupError` (src/ErrorValues.cc 137-145) over the remaining letters: the state and whether the
exception was thrown. -/
def groupLoop (newGroupID : Nat) (e : ErrorValues) : List Letter → ErrorValues × Bool
  | [] => (e, false)
  | cur :: rest =>
    match SMap.find ltLetter e.groupMap cur with
    | some g => if g ≠ newGroupID then (e, true) else groupLoop newGroupID e rest
    | none => groupLoop newGroupID { e with groupMap := SMap.set ltLetter e.groupMap cur newGroupID } rest

/-- Inner loop of `addGroupErrorToLUT` (src/ErrorValues.cc 153-159) for one `l1`. -/
def lutGroupInner (error : Int) (l1 : Letter) (e : ErrorValues) : List Letter → M ErrorValues
  | [] => .ok e
  | l2 :: rest =>
    if l1 = l2 then lutGroupInner error l1 e rest
    else do
      let e ← e.addToLUT l1 l2 error
      lutGroupInner error l1 e rest

/-- `ErrorValues::addGroupErrorToLUT` (src/ErrorValues.cc 151-161). -/
def addGroupErrorToLUT (error : Int) (e : ErrorValues) : List Letter → M ErrorValues
  | [] => .ok e
  | l1 :: rest => do
    let e ← lutGroupInner error l1 e (l1 :: rest)
    addGroupErrorToLUT error e rest

/-- `ErrorValues::setGroupError` (src/ErrorValues.cc 134-149): the state after the call and the exception. -/
def setGroupError (e : ErrorValues) (groupLetters : Word) (error : Int) : ErrorValues × Option Fault :=
  let newGroupID := e.groupErrors.length
  let e := { e with groupErrors := e.groupErrors ++ [error] }
  match groupLoop newGroupID e groupLetters with
  | (e, true) => (e, some .runtimeError)
  | (e, false) =>
    match addGroupErrorToLUT error e groupLetters with
    | .ok e => (e, none)
    | .error f => (e, some f)

/-- The `while(getline(...))` loop of `addAccents` (src/ErrorValues.cc 183-188) over the lines of the data file. -/
def accentLoop [Build] [Icu] (e : ErrorValues) : List Bytes → ErrorValues × Option Fault
  | [] => (e, none)
  | line :: rest =>
    match Word.ofUtf8 line with
    | .error f => (e, some f)
    | .ok group =>
      if group.length = 0 then accentLoop e rest
      else match e.setGroupError group DEFAULT_GROUP_ERROR with
        | (e, some f) => (e, some f)
        | (e, none) => accentLoop e rest

/-- The data directory as `addAccents` sees it (src/ColumbusSlow.cc 33-52, src/ErrorValues.cc 167-182): for a base name,
the lines of the file, or `none` when it is missing or cannot be opened. The lookup of the directory
(environment variable, default) is in Model/DataFile.lean. Lines end at the first NUL (`line.c_str()`, 184). -/
abbrev DataDir := Bool → Option (List Bytes)

/-- `ErrorValues::addAccents` (src/ErrorValues.cc 167-189). The group is `false` for latin and `true` for greek. -/
def addAccents [Build] [Icu] (data : DataDir) (e : ErrorValues) (group : Bool) : ErrorValues × Option Fault :=
  match data group with
  | none => (e, some .runtimeError)
  | some lines => accentLoop e (lines.map fun l => l.takeWhile (· != 0))

/-- Keyboard rows (src/ErrorValues.cc 194-199). -/
def keyboardLayout : List (List Letter) := [
  [0x31, 0x32, 0x33, 0x34, 0x35, 0x36, 0x37, 0x38, 0x39, 0x30, 0x2b],
  [0x71, 0x77, 0x65, 0x72, 0x74, 0x79, 0x75, 0x69, 0x6f, 0x70, 0xe5],
  [0x61, 0x73, 0x64, 0x66, 0x67, 0x68, 0x6a, 0x6b, 0x6c, 0xf6, 0xe4, 0x27],
  [0x7a, 0x78, 0x63, 0x76, 0x62, 0x6e, 0x6d, 0x2c, 0x2e, 0x2d]]

/-- `lineLens` (src/ErrorValues.cc 200). -/
def lineLens : List Nat := [11, 11, 12, 10]

/-- `keyboard_layout[i][j]`, out of bounds otherwise. -/
def keyAt (i j : Nat) : M Letter :=
  match keyboardLayout[i]? with
  | none => .error .ub
  | some row => match row[j]? with
    | none => .error .ub
    | some l => .ok l

/-- `lineLens[i]`. -/
def lineLen (i : Nat) : M Nat :=
  match lineLens[i]? with
  | none => .error .ub
  | some n => .ok n

/-- Body of the inner loop of `addKeyboardErrors` (src/ErrorValues.cc 205-211). -/
def keyboardStep (error : Int) (i j1 : Nat) (e : ErrorValues) : M ErrorValues := do
  let leni ← lineLen i
  let lenn ← lineLen (i + 1)
  let l1 ← keyAt i j1
  let e ← if j1 + 1 < leni then do let l ← keyAt i (j1 + 1); e.setError l1 l error else .ok e
  let e ← if 0 < j1 ∧ j1 - 1 < lenn then do let l ← keyAt (i + 1) (j1 - 1); e.setError l1 l error else .ok e
  if j1 < lenn then do let l ← keyAt (i + 1) j1; e.setError l1 l error else .ok e

/-- Inner loop over `j1` (src/ErrorValues.cc 204-212). -/
def keyboardRow (error : Int) (i : Nat) (e : ErrorValues) : List Nat → M ErrorValues
  | [] => .ok e
  | j :: js => do
    let e ← keyboardStep error i j e
    keyboardRow error i e js

/-- Outer loop over rows (src/ErrorValues.cc 201-213). -/
def keyboardRows (error : Int) (e : ErrorValues) : List Nat → M ErrorValues
  | [] => .ok e
  | i :: is => do
    let n ← lineLen i
    let e ← keyboardRow error i e (List.range n)
    keyboardRows error e is

/-- `ErrorValues::addKeyboardErrors` (src/ErrorValues.cc 191-216). -/
def addKeyboardErrors (e : ErrorValues) : M ErrorValues :=
  keyboardRows DEFAULT_TYPO_ERROR e (List.range 3)

/-- `padLetters` (src/ErrorValues.cc 232-236). -/
def padLetters : List (List (List Letter)) := [
  [[0x3f, 0x3f, 0x3f, 0x3f], [0x61, 0x62, 0x63, 0x3f], [0x64, 0x65, 0x66, 0x3f]],
  [[0x67, 0x68, 0x69, 0x3f], [0x6a, 0x6b, 0x6c, 0x3f], [0x6d, 0x6e, 0x6f, 0x3f]],
  [[0x70, 0x71, 0x72, 0x73], [0x74, 0x75, 0x76, 0x3f], [0x77, 0x78, 0x79, 0x7a]]]

/-- `padNumbers` (src/ErrorValues.cc 237-241). -/
def padNumbers : List (List Letter) := [[0x31, 0x32, 0x33], [0x34, 0x35, 0x36], [0x37, 0x38, 0x39]]

/-- `letterCount` (src/ErrorValues.cc 242-246). -/
def padLetterCount : List (List Nat) := [[0, 3, 3], [3, 3, 3], [4, 3, 4]]

/-- Two-dimensional array access. -/
def at2 {α : Type} (a : List (List α)) (i j : Nat) : M α :=
  match a[i]? with
  | none => .error .ub
  | some r => match r[j]? with
    | none => .error .ub
    | some x => .ok x

/-- Loop of `setPadError` (src/ErrorValues.cc 220-223) over the letters of one button. -/
def padLoop [Build] (number : Letter) (error : Int) (e : ErrorValues) : List Letter → M ErrorValues
  | [] => .ok e
  | l :: ls => do
    cassert (decide (l ≠ 0x3f#16))
    let e ← e.setError number l error
    padLoop number error e ls

/-- `ErrorValues::setPadError` (src/ErrorValues.cc 218-224) with the array arguments given by the row `j` and the column
`i` of the button. -/
def setPadError [Build] (e : ErrorValues) (number : Letter) (j i : Nat) (error : Int) : M ErrorValues := do
  let letters ← at2 padLetters j i
  let n ← at2 padLetterCount j i
  cassert (decide (0x30 ≤ number.toNat) && decide (number.toNat ≤ 0x39))
  if letters.length < n then .error .ub else padLoop number error e (letters.take n)

/-- Body of the inner loop of `addNumberpadErrors` (src/ErrorValues.cc 250-258), with `w = h = 3`. The `int` tests
`i-1 > 0` and `j-1 > 0` are `1 < i` and `1 < j`. -/
def padStep [Build] (j i : Nat) (e : ErrorValues) : M ErrorValues := do
  let number ← at2 padNumbers j i
  let e ← e.setPadError number j i 0
  let e ← if 1 < i then e.setPadError number j (i - 1) 50 else .ok e
  let e ← if i + 1 < 3 then e.setPadError number j (i + 1) 50 else .ok e
  let e ← if 1 < j then e.setPadError number (j - 1) i 50 else .ok e
  if j + 1 < 3 then e.setPadError number (j + 1) i 50 else .ok e

/-- Loops of `addNumberpadErrors` (src/ErrorValues.cc 248-249) over (row, column) pairs. -/
def padSteps [Build] (e : ErrorValues) : List (Nat × Nat) → M ErrorValues
  | [] => .ok e
  | (j, i) :: r => do
    let e ← padStep j i e
    padSteps e r

/-- `ErrorValues::addNumberpadErrors` (src/ErrorValues.cc 226-261). -/
def addNumberpadErrors [Build] (e : ErrorValues) : M ErrorValues :=
  padSteps e [(0,0),(0,1),(0,2),(1,0),(1,1),(1,2),(2,0),(2,1),(2,2)]

/-- `ErrorValues::addStandardErrors` (src/ErrorValues.cc 263-267). -/
def addStandardErrors [Build] [Icu] (data : DataDir) (e : ErrorValues) : ErrorValues × Option Fault :=
  match addAccents data e false with
  | (e, some f) => (e, some f)
  | (e, none) =>
    match addAccents data e true with
    | (e, some f) => (e, some f)
    | (e, none) =>
      match e.addKeyboardErrors with
      | .ok e => (e, none)
      | .error f => (e, some f)

/-- `ErrorValues::setSubstringMode` (src/ErrorValues.cc 276-280). -/
def setSubstringMode (e : ErrorValues) : ErrorValues :=
  { e with
    startInsertionError := DEFAULT_SUBSTRING_START_INSERTION_ERROR
    endDeletionError := DEFAULT_SUBSTRING_END_DELETION_ERROR
    substringStartLimit := DEFAULT_SUBSTRING_START_LENGTH }

/-- The setters (include/ErrorValues.hh 73-78). -/
def setInsertionError (e : ErrorValues) (v : Int) : ErrorValues := { e with insertionError := v }
def setDeletionError (e : ErrorValues) (v : Int) : ErrorValues := { e with deletionError := v }
def setEndDeletionError (e : ErrorValues) (v : Int) : ErrorValues := { e with endDeletionError := v }
def setStartInsertionError (e : ErrorValues) (v : Int) : ErrorValues := { e with startInsertionError := v }
def setTransposeError (e : ErrorValues) (v : Int) : ErrorValues := { e with transposeError := v }
def setSubstringStartLimit (e : ErrorValues) (v : Nat) : ErrorValues := { e with substringStartLimit := v }

/-- The getters (include/ErrorValues.hh 66-71). -/
def getInsertionError (e : ErrorValues) : Int := e.insertionError
def getDeletionError (e : ErrorValues) : Int := e.deletionError
def getEndDeletionError (e : ErrorValues) : Int := e.endDeletionError
def getStartInsertionError (e : ErrorValues) (queryTermLength : Nat) : Int :=
  if e.substringStartLimit ≤ queryTermLength then e.startInsertionError else e.insertionError
def getTransposeError (e : ErrorValues) : Int := e.transposeError

end ErrorValues
end Columbus
