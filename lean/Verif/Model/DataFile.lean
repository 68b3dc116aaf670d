import Verif.Model.ErrorValues
/-
src/ColumbusSlow.cc and the reading of the data files in src/ErrorValues.cc.
-/

namespace Columbus

/-- What the process sees of the system: the value of the environment variable COLUMBUS_DATADIR, the directory that is
compiled in (include/ColumbusCore.hh.in 81) and the files. A path that `stat` finds has contents, or `none` if it cannot
be opened. A directory has empty contents: it can be opened, but nothing can be read. -/
structure Host where
  env : Option Bytes
  installed : Bytes
  files : Bytes → Option (Option Bytes)

namespace Host

/-- '/' and the newline. -/
def slash : Nat := 0x2f
def newline : Nat := 0x0a

/-- `fileExists` (src/ColumbusSlow.cc 28-31). -/
def fileExists (s : Host) (path : Bytes) : Bool := (s.files path).isSome

/-- `s[i]` for a `std::string`: the terminator can be read, anything beyond it is undefined. -/
def charAt (s : Bytes) (i : Nat) : M Nat :=
  match s[i]? with
  | some c => .ok c
  | none => if i = s.length then .ok 0 else .error .ub

/-- `findDataFile` (src/ColumbusSlow.cc 33-52). `s.length()-1` wraps around for an empty string. -/
def findDataFile (sys : Host) (baseName : Bytes) : M Bytes := do
  let s ← match sys.env with
    | some dir => do
      let last ← charAt dir (if dir.length = 0 then 2^64 - 1 else dir.length - 1)
      .ok ((if last ≠ slash then dir ++ [slash] else dir) ++ baseName)
    | none => .ok (sys.installed ++ baseName)
  if sys.fileExists s then .ok s else .ok []

/-- `accentGroupDataFile` (src/ErrorValues.cc 38-39). -/
def accentGroupDataFile (greek : Bool) : Bytes :=
  if greek then
    [0x67, 0x72, 0x65, 0x65, 0x6b, 0x41, 0x63, 0x63, 0x65, 0x6e, 0x74, 0x65, 0x64, 0x4c, 0x65, 0x74, 0x74, 0x65, 0x72,
     0x47, 0x72, 0x6f, 0x75, 0x70, 0x73, 0x2e, 0x74, 0x78, 0x74]
  else
    [0x6c, 0x61, 0x74, 0x69, 0x6e, 0x41, 0x63, 0x63, 0x65, 0x6e, 0x74, 0x65, 0x64, 0x4c, 0x65, 0x74, 0x74, 0x65, 0x72,
     0x47, 0x72, 0x6f, 0x75, 0x70, 0x73, 0x2e, 0x74, 0x78, 0x74]

/-- One `getline`: the characters up to the newline, which is dropped, and the rest of the stream. -/
def getline : Bytes → Bytes × Bytes
  | [] => ([], [])
  | c :: r => if c = newline then ([], r) else let (l, r') := getline r; (c :: l, r')

/-- The lines that a `while(getline(...))` loop sees (src/ErrorValues.cc 183): `getline` fails when nothing is left. -/
def readLines : Nat → Bytes → List Bytes
  | 0, _ => []
  | _, [] => []
  | n + 1, c :: r => let (l, r') := getline (c :: r); l :: readLines n r'

/-- The lines of a file. -/
def lines (contents : Bytes) : List Bytes := readLines contents.length contents

/-- `ErrorValues::addAccents` (src/ErrorValues.cc 167-189), with the lookup of the file. -/
def addAccents [Build] [Icu] (sys : Host) (e : ErrorValues) (greek : Bool) : ErrorValues × Option Fault :=
  match sys.findDataFile (accentGroupDataFile greek) with
  | .error f => (e, some f)
  | .ok dataFile =>
    if dataFile.length = 0 then (e, some .runtimeError)
    else match sys.files dataFile with
      | some (some contents) => ErrorValues.accentLoop e ((lines contents).map fun l => l.takeWhile (· != 0))
      | _ => (e, some .runtimeError)

/-- `ErrorValues::addStandardErrors` (src/ErrorValues.cc 263-267), with the lookup of the files. -/
def addStandardErrors [Build] [Icu] (sys : Host) (e : ErrorValues) : ErrorValues × Option Fault :=
  match addAccents sys e false with
  | (e, some f) => (e, some f)
  | (e, none) =>
    match addAccents sys e true with
    | (e, some f) => (e, some f)
    | (e, none) =>
      match e.addKeyboardErrors with
      | .ok e => (e, none)
      | .error f => (e, some f)

end Host
end Columbus
