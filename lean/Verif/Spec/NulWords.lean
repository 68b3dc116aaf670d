import Verif.Model.Trie

/-! What a word store does with words whose last letter, and no other, is NUL, in a release build. -/

namespace Columbus.Spec

/-- The entries of a store: the words it can find again, and `none` for words with a NUL letter. -/
abbrev Entries := List (Option Word)

/-- The entries after `getID` of a word. -/
def Entries.enter (es : Entries) (w : Word) : Entries :=
  if w = [] then es
  else if 0#16 ∈ w then es ++ [none]
  else if some w ∈ es then es
  else es ++ [some w]

/-- What `getID` answers, `none` being `out_of_range`. -/
def Entries.answer (es : Entries) (w : Word) : Option WordID :=
  if w = [] then none
  else if 0#16 ∈ w then some es.length
  else some (List.idxOf (some w) (es.enter w))

/-- The entries after `getID` of each word in turn. -/
def Entries.after (es : Entries) (ws : List Word) : Entries := ws.foldl Entries.enter es

/-- The answers to `getID` of each word in turn. -/
def Entries.answers : Entries → List Word → List (Option WordID)
  | _, [] => []
  | es, w :: r => es.answer w :: (es.enter w).answers r

end Columbus.Spec
