import Verif.Spec.Resources
/-
Specification of walks through a trie with its public functions (C98).
-/

namespace Columbus.Spec
open Columbus

/-- What `Trie::insertWord` asks of its caller: words that are not empty, have no NUL letter and do not start with the second
half of a surrogate pair, and a valid identifier, always the same for a word. -/
structure TrieUse (h : IndexHistory) : Prop where
  notEmpty : ∀ p ∈ h, p.1 ≠ []
  noNul : ∀ p ∈ h, ∀ l ∈ p.1, l ≠ 0#16
  start : ∀ p ∈ h, ∀ l, p.1.head? = some l → isLowSurrogate l = false
  valid : ∀ p ∈ h, p.2 < INVALID_WORDID
  same : ∀ p ∈ h, ∀ r ∈ h, p.1 = r.1 → p.2 = r.2

/-- A new trie into which the words were inserted. -/
def filled [Build] (os : Nat → Bool) (h : IndexHistory) : M Trie := do
  let t ← Trie.new os
  Res.insertAllTrie t h

/-- The list of records that starts with `s`: one follows the next, and 0 is the end. -/
inductive Records (t : Trie) : Nat → List Nat → Prop where
  | nil : Records t 0 []
  | cons {s s' r} : s ≠ 0 → t.getNextSibling s = .ok s' → Records t s' r → Records t s (s :: r)

/-- Going down from the root to the node, the letters of the word are passed. -/
inductive Spells (t : Trie) : Nat → Word → Prop where
  | root : Spells t t.getRoot []
  | down {n w s ss x l c} : Spells t n w → t.getSiblingList n = .ok s → Records t s ss → x ∈ ss → t.getLetter x = .ok l →
      t.getChild x = .ok c → Spells t c (w ++ [l])

/-- The letters by which the words inserted go on after `p`, in the order of insertion. -/
def goOn (h : IndexHistory) (p : Word) : List Letter :=
  h.filterMap fun q => if p <+: q.1 then (q.1.drop p.length).head? else none

end Columbus.Spec
