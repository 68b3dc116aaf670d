import Verif.Model.Resources
import Verif.Spec.Index
/-
Specification of what a process with tries holds (C86).
-/

namespace Columbus.Res

/-- The call of `expand` number `k` got all it asked for; the first does not ask for `munmap`. -/
def granted (sys : System) (k : Nat) : Bool :=
  (k == 0 || (sys.expand k).unmap) && (sys.expand k).truncate && (sys.expand k).map

/-- The number of calls before `c` that got all. -/
def grants (sys : System) (c : Nat) : Nat := (List.range c).countP (granted sys)

/-- The last call of `expand` has taken the mapping away and made no new one: `ftruncate` or `mmap` was refused, or the
file had the last size that 32 bits can hold (1024 doubled 21 times). -/
def Lost (o : Obj) : Prop := ∃ k, o.calls = k + 1 ∧ (k = 0 ∨ (o.sys.expand k).unmap = true) ∧
  ((o.sys.expand k).truncate = false ∨ (o.sys.expand k).map = false ∨ grants o.sys k = 22)

/-- `os` grants each size if the system grants all in the call of `expand` that first asks for it. -/
def Like (sys : System) (os : Nat → Bool) : Prop := ∀ k, os (1024 * 2^k) = granted sys k

/-- The system grants everything. -/
def Generous (sys : System) : Prop := sys.tmpfile = true ∧ ∀ k, sys.expand k = ⟨true, true, true⟩

/-- Insertions into one trie, one after the other; the first exception ends them. -/
def insertAll [Build] : Spec.IndexHistory → Act Unit
  | [] => pure ()
  | p :: r => do
    let _ ← insertWord p.1 p.2
    insertAll r

/-- The same on Model/Trie.lean. -/
def insertAllTrie [Build] (t : Trie) : Spec.IndexHistory → M Trie
  | [] => .ok t
  | p :: r => do
    let (t', _) ← t.insertWord p.1 p.2
    insertAllTrie t' r

end Columbus.Res
