import Verif.Model.SearchApps
/-
The exact match of tools/numberpad.cc: after every search the tool has the shell run `grep` for the lines that begin with
what was dialled.
-/

namespace Columbus.Apps

/-- What one character of the query adds to the regular expression (tools/numberpad.cc 62-74). -/
def padClass (c : Nat) : Bytes :=
  if c = 0x30 then [0x30]
  else if c = 0x31 then [0x31]
  else if c = 0x32 then [0x5b, 0x32, 0x61, 0x62, 0x63, 0x5d]
  else if c = 0x33 then [0x5b, 0x33, 0x64, 0x65, 0x66, 0x5d]
  else if c = 0x34 then [0x5b, 0x34, 0x67, 0x68, 0x69, 0x5d]
  else if c = 0x35 then [0x5b, 0x35, 0x6a, 0x6b, 0x6c, 0x5d]
  else if c = 0x36 then [0x5b, 0x36, 0x6d, 0x6e, 0x6f, 0x5d]
  else if c = 0x37 then [0x5b, 0x37, 0x70, 0x71, 0x72, 0x73, 0x5d]
  else if c = 0x38 then [0x5b, 0x38, 0x74, 0x75, 0x76, 0x5d]
  else if c = 0x39 then [0x5b, 0x39, 0x77, 0x78, 0x79, 0x7a, 0x5d]
  else [c]

/-- The loop over the query (tools/numberpad.cc 61-75); `regex` is what was put together so far. -/
def padLoop (regex : Bytes) : Bytes → Bytes
  | [] => regex
  | c :: r => padLoop (regex ++ padClass c) r

/-- The regular expression (tools/numberpad.cc 59-75); the query ends at a NUL. -/
def padRegex (query : Bytes) : Bytes := padLoop [0x5e] (cstr query)

/-- "grep ". -/
def grepText : Bytes := [0x67, 0x72, 0x65, 0x70, 0x20]

/-- The text given to `system` by `doExactMatch` (tools/numberpad.cc 58-83). -/
def padCommand (query fname : Bytes) : Bytes :=
  let command := grepText
  let command := command ++ [0x27]
  let command := command ++ padRegex query
  let command := command ++ [0x27, 0x20]
  command ++ cstr fname

end Columbus.Apps
