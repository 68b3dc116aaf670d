import Verif.Model.SearchApps
import Verif.Spec.Tools
import Verif.Spec.CApi
/-
Specification of the graphical tools: which lines are shown for a query.
-/

namespace Columbus.Spec
open Columbus Columbus.Apps

/-- What C has of a text: what is before the first NUL. -/
def beforeNul (s : Bytes) : Bytes := s.takeWhile (· != 0)

/-- The line as the tools keep it: a carriage return before the last character becomes a NUL. -/
def marked (l : Bytes) : Bytes :=
  match l.reverse with
  | b :: 0x0d :: r => r.reverse ++ [0, b]
  | _ => l

/-- What the tools take for a line: nothing after a NUL, nor after a carriage return before the last character. -/
def textOf (l : Bytes) : Bytes := beforeNul (marked l)

/-- A line that the tools can use. -/
structure ToolLine (l : Bytes) : Prop where
  long : 2 ≤ l.length
  noNewline : 0x0a ∉ l
  wellFormed : WellFormed (textOf l)
  short : l.length ≤ 10000000

/-- `w` are the letters, in lower case, of a word of the text. -/
def HasWord [Icu] (s : Bytes) (w : Word) : Prop := ∃ ts, Tokens s ts ∧ ∃ t ∈ ts, LowerLetters t w

/-- A word of the query is within the limit of a word of the text: 100 if it has one letter, 200 if it has more. -/
def Close [Icu] (price : Word → Word → Int → Prop) (q s : Bytes) : Prop :=
  ∃ x w v, HasWord q x ∧ HasWord s w ∧ price x w v ∧ v ≤ if x.length < 2 then 100 else 200

/-- Each edit costs 100. -/
def EditPrice (x w : Word) (v : Int) : Prop := ∃ n, IsEditDistance x w n ∧ v = 100 * n

/-- The least price with the given costs. -/
def PriceWith (e : ErrorValues) (x w : Word) (v : Int) : Prop := IsEditCost (configured e x.length) x w v

/-- The tool answers queries with the items chosen by `chosen`: it shows `row` of each, once, with the relevancies of the
library, by falling relevancy and equal ones in the order of the items; for a query that is no text the list is empty
because the search fails. The tool is then as before. -/
def Answers [Build] [Icu] [Runtime] [Fp] {ι ρ : Type} (search : App ρ → Bytes → M (App ρ × Shown ρ)) (app : App ρ)
    (items : List ι) (row : ι → ρ) (chosen : Bytes → ι → Prop) : Prop :=
  ∀ q, CString q →
    (¬ WellFormed q → search app q = .ok (app, .failed)) ∧
    (WellFormed q → ∃ found k l, search app q = .ok (app, .rows l) ∧
      app.m.matchUtf8 q = (app.m, .ok found) ∧ Shows found k ∧
      List.Forall₂ (fun (x : Result) (r : ρ × ℚ) => (∃ it, items[x.2]? = some it ∧ r.1 = row it) ∧ r.2 = x.1) k l ∧
      (k.map (·.2)).Nodup ∧ k.Pairwise RankOrder ∧
      ∀ i, i ∈ k.map (·.2) ↔ ∃ it, items[i]? = some it ∧ chosen q it)

/-- The index of the tool has for each item, by its place, the words of its texts, each under the name of its field. -/
def Indexes [Build] [Icu] [Runtime] [Fp] {ι ρ : Type} (os : Nat → Bool) (app : App ρ) (items : List ι)
    (texts : ι → List (Bytes × Bytes)) : Prop :=
  ∃ H, Ran os app.m H [] ∧ ∀ d f w, H.Posting d f w ↔
    ∃ it, items[d]? = some it ∧ ∃ t ∈ texts it, LowerLetters t.1 f ∧ HasWord t.2 w

/-- One of the texts has a word that is close to a word of the query. -/
def AnyClose [Icu] {ι : Type} (price : Word → Word → Int → Prop) (texts : ι → List (Bytes × Bytes)) (q : Bytes) (it : ι) : Prop :=
  ∃ t ∈ texts it, Close price q t.2

/-- The parts of a line: what is before and what is after the first `>`. Without it both are the whole line. -/
def parts (l : Bytes) : Bytes × Bytes :=
  if 0x3e ∈ l then (l.takeWhile (· != 0x3e), (l.dropWhile (· != 0x3e)).drop 1) else (l, l)

/-- What is shown of the parts of a line: neither has anything after a NUL. -/
def shownParts (l : Bytes) : Bytes × Bytes := (beforeNul (parts (marked l)).1, beforeNul (parts (marked l)).2)

/-- A line of commands that can be used. -/
structure CommandLine (l : Bytes) : Prop where
  long : 2 ≤ l.length
  noNewline : 0x0a ∉ l
  path : WellFormed (shownParts l).1
  command : WellFormed (shownParts l).2
  short : l.length ≤ 10000000

/-- The second part has more than blanks. -/
def hasCommand (l : Bytes) : Bool := (shownParts l).2.any fun b => ![0x20, 0x09, 0x0a, 0x0d].contains b

/-- The text `s` of ASCII characters. -/
def ascii (s : String) : Bytes := s.toList.map Char.toNat

/-- What is searched in a line: its path, its command, and the other name of one command, which is looked for after a NUL
too. -/
def commandTexts (l : Bytes) : List (Bytes × Bytes) :=
  [(ascii "path", (shownParts l).1), (ascii "command", (shownParts l).2)] ++
    if ascii "Fuzzy Select" <:+: (parts (marked l)).2 then [(ascii "alias", ascii "magnetic lasso")] else []

/-- The weight of fields is 1, except for those given. -/
def Weighs [Icu] {ρ : Type} (app : App ρ) (ws : List (Bytes × ℚ)) : Prop :=
  ∀ f, (∀ p ∈ ws, LowerLetters p.1 f → IndexWeights.getWeight app.m.weights f = p.2) ∧
    ((∀ p ∈ ws, ¬ LowerLetters p.1 f) → IndexWeights.getWeight app.m.weights f = 1)

/-- The size of some texts and of the names of their fields. -/
def textsLength (ts : List (Bytes × Bytes)) : Nat := (ts.map fun t => t.1.length + t.2.length).sum

/-- A line of a desktop file that can be read: with an equals sign, what is before it and what is after it have to be text,
up to the first NUL. -/
structure DesktopLine (l : Bytes) : Prop where
  noNewline : 0x0a ∉ l
  wellFormed : ∀ k v, l = k ++ 0x3d :: v → 0x3d ∉ k → WellFormed (beforeNul k) ∧ WellFormed (beforeNul v)
  short : l.length ≤ 10000000

/-- The line gives the key, in lower case, a value that has more than blanks. -/
def Gives [Icu] (key : Bytes) (l v : Bytes) : Prop :=
  ∃ k x cps, l = k ++ 0x3d :: x ∧ 0x3d ∉ k ∧ Utf8 (beforeNul k) cps ∧ (∀ b ∈ beforeNul k, ¬ IsBlank b) ∧ cps.map lowerCp = key ∧
    v = beforeNul x ∧ ∃ b ∈ v, ¬ IsBlank b

/-- What some lines say about a key: the last one that gives it a value counts. -/
def LastValue [Icu] (key : Bytes) (ls : List Bytes) : Option Bytes → Prop
  | none => ∀ l ∈ ls, ∀ v, ¬ Gives key l v
  | some v => ∃ pre l post, ls = pre ++ l :: post ∧ Gives key l v ∧ ∀ l' ∈ post, ∀ v', ¬ Gives key l' v'

/-- The texts of a program: its name, generic name and comment. -/
def programTexts (name : Bytes) (generic comment : Option Bytes) : List (Bytes × Bytes) :=
  (ascii "name", name) :: (generic.toList.map fun t => (ascii "genericname", t)) ++ comment.toList.map fun t => (ascii "comment", t)

/-- The programs of a directory, with the names of their files and their texts: hidden files and files without a name are
left out. -/
inductive Programs [Icu] : List (Bytes × Option Bytes) → List (Bytes × List (Bytes × Bytes)) → Prop
  | nil : Programs [] []
  | hidden {file contents r ps} : file.head? = some 0x2e → Programs r ps → Programs ((file, contents) :: r) ps
  | unnamed {file ls last r ps} : file.head? ≠ some 0x2e → (∀ l ∈ ls ++ [last], 0x0a ∉ l) → LastValue (ascii "name") (ls ++ [last]) none →
      Programs r ps → Programs ((file, some (fileOf ls ++ last)) :: r) ps
  | program {file ls last name generic comment r ps} : file.head? ≠ some 0x2e → (∀ l ∈ ls ++ [last], 0x0a ∉ l) →
      LastValue (ascii "name") (ls ++ [last]) (some name) → LastValue (ascii "genericname") (ls ++ [last]) generic →
      LastValue (ascii "comment") (ls ++ [last]) comment → Programs r ps →
      Programs ((file, some (fileOf ls ++ last)) :: r) ((file, programTexts name generic comment) :: ps)

/-- A directory of which all files that are not hidden can be opened and read. -/
def ReadableDir (dir : List (Bytes × Option Bytes)) : Prop :=
  ∀ x ∈ dir, x.1.head? = some 0x2e ∨ ∃ ls last, x.2 = some (fileOf ls ++ last) ∧ ∀ l ∈ ls ++ [last], DesktopLine l

end Columbus.Spec
