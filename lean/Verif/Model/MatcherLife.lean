import Verif.Model.Matcher
import Verif.Model.Resources
/-
What a matcher holds while it lives, and `Matcher::~Matcher` (src/Matcher.cc 267-272). Each of its tries has a private part, a
temporary file and a mapping of its own, as in Model/Resources.lean.
-/

namespace Columbus.Life
open Columbus

/-- What a trie of Model/Trie.lean holds: the private part, the file, and the mapping unless it was lost. `sys` are the answers it
got from the system so far and will get; `calls` the calls of `expand` behind it, one for 1024 bytes and one for each doubling. -/
def held (sys : Res.System) (t : Trie) : Res.Obj where
  priv := true
  file := true
  map := if t.mapped = 0 then .gone else .live t.mapped
  mem := t.mem
  root := t.root
  calls := (t.mapped / 1024).log2 + 1
  sys := sys

/-- The tries of a matcher: one for each index (src/Matcher.cc 97, src/LevenshteinIndex.cc 57-64), then that of the store
(src/Matcher.cc 102, src/WordStore.cc 41-44). -/
def tries (m : Matcher) : List Trie := m.indexes.map (·.2.trie) ++ [m.store.words]

/-- What the tries hold. -/
def holds (sys : Res.System) (m : Matcher) : Res.Proc := (tries m).map fun t => (.alive, held sys t)

/-- `Matcher::~Matcher` (src/Matcher.cc 267-272): deletes the indexes (src/LevenshteinIndex.cc 73-75), then the private part and
with it the store (src/WordStore.cc 51-53). The other members hold nothing but memory that their destructors free. -/
def destroy [Build] (sys : Res.System) (m : Matcher) : M Res.Proc :=
  Res.run ((List.range (tries m).length).map .destroy) (holds sys m)

end Columbus.Life
