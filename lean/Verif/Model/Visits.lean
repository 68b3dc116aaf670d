import Verif.Model.Levenshtein
/-
src/LevenshteinIndex.cc again, with a record of the nodes a search looks at.
-/

namespace Columbus.LevIndex

mutual
/-- `LevenshteinIndex::searchRecursive` (src/LevenshteinIndex.cc 144-166). `path` is what the letters on the way to the node
spell, the node's own included; each call records it. A call computes one value per letter of the query (148-151), and the
calls that are active at a time are those for the beginnings of `path`. -/
def visitRecursive (t : Trie) (query : Word) (e : ErrorValues) (maxError : Int) (fuel : Nat) (node : Nat)
    (letter previousLetter : Letter) (depth : Nat) (path : Word) (em : ErrorMatrix) (ms : IndexMatches) (seen : List Word) :
    M (ErrorMatrix × IndexMatches × List Word) :=
  match fuel with
  | 0 => .error .fuel
  | fuel + 1 => do
    let seen := seen ++ [path]
    let em ← fillRow query e letter previousLetter depth em (List.range' 1 query.length)
    let total ← em.totalError depth
    let w ← t.getWordID node
    let ms := if total ≤ maxError ∧ w ≠ INVALID_WORDID then IndexMatches.addMatch ms w total else ms
    let mn ← em.minError depth
    if mn ≤ maxError then do
      let sibling ← t.getSiblingList node
      visitSiblings t query e maxError fuel sibling letter (depth + 1) path em ms seen
    else .ok (em, ms, seen)
/-- The loops over the children (src/LevenshteinIndex.cc 115-120, 159-164); `path` is that of their parent. -/
def visitSiblings (t : Trie) (query : Word) (e : ErrorValues) (maxError : Int) (fuel : Nat) (sibling : Nat)
    (letter : Letter) (depth : Nat) (path : Word) (em : ErrorMatrix) (ms : IndexMatches) (seen : List Word) :
    M (ErrorMatrix × IndexMatches × List Word) :=
  match fuel with
  | 0 => .error .fuel
  | fuel + 1 =>
    if sibling = 0 then .ok (em, ms, seen)
    else do
      let l ← t.getLetter sibling
      let nextNode ← t.getChild sibling
      let (em, ms, seen) ← visitRecursive t query e maxError fuel nextNode l letter depth (path ++ [l]) em ms seen
      let sibling ← t.getNextSibling sibling
      visitSiblings t query e maxError fuel sibling letter depth path em ms seen
end

/-- `LevenshteinIndex::findWords` (src/LevenshteinIndex.cc 104-122): the contents of `matches` after the call, and the nodes
looked at. -/
def visitWords [Build] [Runtime] (ix : LevIndex) (query : Word) (e : ErrorValues) (maxError : Int)
    (matches0 : IndexMatches) : M (IndexMatches × List Word) := do
  let em ← ErrorMatrix.new (ix.longestWordLength + 1) (query.length + 1) e.getDeletionError
    (e.getStartInsertionError query.length)
  let e00 ← em.get 0 0
  cassert (decide (e00 = 0))
  if 0 < query.length then
    let e01 ← em.get 0 1
    cassert (decide (e01 = e.getInsertionError))
  let sibling ← ix.trie.getSiblingList ix.trie.getRoot
  let (_, ms, seen) ← visitSiblings ix.trie query e maxError ix.trie.mapped sibling 0#16 1 [] em matches0 []
  .ok (IndexMatches.sort ms, seen)

end Columbus.LevIndex
