import Verif.Model.DataFile
import Verif.Proofs.Basic
import Verif.Props.Accents
/-
C71: the data files.
-/

namespace Columbus.Props
open Columbus Host

/-- The directory that is searched: the environment variable, with a slash at the end, or the compiled-in one. -/
def searched (sys : Host) : Bytes :=
  match sys.env with
  | some d => if d.getLast? = some 0x2f then d else d ++ [0x2f]
  | none => sys.installed

/-- The names under which the files are installed (share/CMakeLists.txt). -/
def shippedName (greek : Bool) : Bytes :=
  (if greek then "greekAccentedLetterGroups.txt" else "latinAccentedLetterGroups.txt").toList.map Char.toNat

theorem shippedName_eq (greek : Bool) : accentGroupDataFile greek = shippedName greek := by
  cases greek <;> decide +kernel

/-- The files of the searched directory, line by line. -/
def dataOf (sys : Host) : ErrorValues.DataDir := fun greek =>
  match sys.files (searched sys ++ shippedName greek) with
  | some (some contents) => some (lines contents)
  | _ => none

/-- C71. If the environment variable is not set to the empty text, the file in the searched directory is given, or
nothing if there is no such file. -/
theorem C71_path_partial (sys : Host) (h : sys.env ≠ some []) (base : Bytes) :
    sys.findDataFile base = .ok (if sys.fileExists (searched sys ++ base) then searched sys ++ base else []) := by
  unfold findDataFile searched
  rw [show slash = 0x2f from rfl]
  cases hs : sys.env with
  | none => simp only [ok_bind]; split <;> rfl
  | some d =>
    have hd : d ≠ [] := by rintro rfl; exact h hs
    have hl : d.length ≠ 0 := by simpa using hd
    have hc : charAt d (d.length - 1) = .ok (d.getLast hd) := by
      unfold charAt
      rw [List.getElem?_eq_getElem (by omega), List.getLast_eq_getElem]
    simp only [if_neg hl, hc, ok_bind, List.getLast?_eq_some_getLast hd, Option.some.injEq]
    by_cases hx : d.getLast hd = 0x2f
    · simp only [hx, ne_eq, not_true_eq_false, if_false, if_true]
      split <;> rfl
    · simp only [ne_eq, hx, not_false_eq_true, if_true, if_false]
      split <;> rfl

/-- C71. An empty environment variable: the character before the text is read. -/
theorem C71_empty (sys : Host) (h : sys.env = some []) (base : Bytes) : sys.findDataFile base = .error .ub := by
  unfold findDataFile
  rw [h]
  rfl

theorem C71_false : ¬ ∀ (sys : Host) (base : Bytes), ∃ p, sys.findDataFile base = .ok p := by
  intro h
  obtain ⟨p, hp⟩ := h ⟨some [], [], fun _ => none⟩ []
  rw [C71_empty _ rfl] at hp
  cases hp

theorem getline_eq (l r : Bytes) (h : newline ∉ l) : getline (l ++ newline :: r) = (l, r) := by
  induction l with
  | nil => simp [getline]
  | cons c l ih =>
    simp only [List.mem_cons, not_or] at h
    simp [getline, Ne.symm h.1, ih h.2]

theorem getline_end (l : Bytes) (h : newline ∉ l) : getline l = (l, []) := by
  induction l with
  | nil => simp [getline]
  | cons c l ih =>
    simp only [List.mem_cons, not_or] at h
    simp [getline, Ne.symm h.1, ih h.2]

/-- C71. The lines of a file are what was written between the newlines; a last line need not be ended by one. -/
theorem C71_lines (ls : List Bytes) (h : ∀ l ∈ ls, 0x0a ∉ l) (last : Bytes) (hl : 0x0a ∉ last) :
    lines (ls.flatMap (fun l => l ++ [0x0a]) ++ last) = ls ++ (if last = [] then [] else [last]) := by
  show lines (ls.flatMap (fun l => l ++ [newline]) ++ last) = _
  change ∀ l ∈ ls, newline ∉ l at h
  change newline ∉ last at hl
  have key : ∀ (ls : List Bytes), (∀ l ∈ ls, newline ∉ l) → ∀ n, (ls.flatMap (fun l => l ++ [newline]) ++ last).length ≤ n →
      readLines n (ls.flatMap (fun l => l ++ [newline]) ++ last) = ls ++ (if last = [] then [] else [last]) := by
    intro ls
    induction ls with
    | nil =>
      intro _ n hn
      cases last with
      | nil => cases n <;> simp [readLines]
      | cons c r =>
        cases n with
        | zero => simp at hn
        | succ n =>
          simp only [List.flatMap_nil, List.nil_append, readLines, getline_end _ hl]
          cases n <;> simp [readLines]
    | cons l ls ih =>
      intro h n hn
      simp only [List.mem_cons, forall_eq_or_imp] at h
      have e1 : (l :: ls).flatMap (fun l => l ++ [newline]) ++ last =
          l ++ newline :: (ls.flatMap (fun l => l ++ [newline]) ++ last) := by simp
      rw [e1] at hn ⊢
      cases n with
      | zero => simp at hn
      | succ n =>
        have hne : l ++ newline :: (ls.flatMap (fun l => l ++ [newline]) ++ last) ≠ [] := by simp
        obtain ⟨c, r, hcr⟩ := List.exists_cons_of_ne_nil hne
        rw [hcr, readLines, ← hcr, getline_eq _ _ h.1]
        simp only [List.cons_append, List.cons.injEq, true_and]
        exact ih h.2 n (by simp at hn ⊢; omega)
  exact key ls h _ (le_refl _)

/-- C71. `addAccents` and `addStandardErrors` work as with the files of the searched directory, so all theorems on them
apply. -/
theorem C71_accents_partial [Build] [Icu] (sys : Host) (h : sys.env ≠ some []) (e : ErrorValues) (greek : Bool) :
    sys.addAccents e greek = ErrorValues.addAccents (dataOf sys) e greek := by
  unfold Host.addAccents ErrorValues.addAccents dataOf
  rw [← shippedName_eq, C71_path_partial sys h]
  have hb : (searched sys ++ accentGroupDataFile greek).length ≠ 0 := by
    cases greek <;> simp [accentGroupDataFile]
  unfold fileExists
  cases hf : sys.files (searched sys ++ accentGroupDataFile greek) with
  | none => simp
  | some c =>
    simp only [Option.isSome_some, if_true, if_neg hb, hf]
    cases c <;> rfl

theorem C71_standard_partial [Build] [Icu] (sys : Host) (h : sys.env ≠ some []) (e : ErrorValues) :
    sys.addStandardErrors e = ErrorValues.addStandardErrors (dataOf sys) e := by
  unfold Host.addStandardErrors ErrorValues.addStandardErrors
  simp only [C71_accents_partial sys h]
  rcases ErrorValues.addAccents (dataOf sys) e false with ⟨e1, _ | f⟩
  · simp only
    rcases ErrorValues.addAccents (dataOf sys) e1 true with ⟨e2, _ | f⟩ <;> rfl
  · rfl

/-- The shipped files in the directory "/usr/", the variable not set. -/
def installedHost : Host where
  env := none
  installed := [0x2f, 0x75, 0x73, 0x72, 0x2f]
  files p := if p = [0x2f, 0x75, 0x73, 0x72, 0x2f] ++ shippedName false then
      some (some (latinFile.flatMap (fun l => l ++ [0x0a])))
    else if p = [0x2f, 0x75, 0x73, 0x72, 0x2f] ++ shippedName true then
      some (some (greekFile.flatMap (fun l => l ++ [0x0a])))
    else none

theorem installed_data : dataOf installedHost = sharedData := by
  have h1 : ∀ l ∈ latinFile, 0x0a ∉ l := by decide +kernel
  have h2 : ∀ l ∈ greekFile, 0x0a ∉ l := by decide +kernel
  have e1 := C71_lines latinFile h1 [] (by simp)
  have e2 := C71_lines greekFile h2 [] (by simp)
  simp only [List.append_nil, if_true] at e1 e2
  have f1 : installedHost.files (searched installedHost ++ shippedName false) =
      some (some (latinFile.flatMap (fun l => l ++ [0x0a]))) := by
    rw [show searched installedHost = [0x2f, 0x75, 0x73, 0x72, 0x2f] from rfl]
    simp only [installedHost, if_true]
  have f2 : installedHost.files (searched installedHost ++ shippedName true) =
      some (some (greekFile.flatMap (fun l => l ++ [0x0a]))) := by
    rw [show searched installedHost = [0x2f, 0x75, 0x73, 0x72, 0x2f] from rfl]
    simp only [installedHost, if_true]
    rw [if_neg (by decide +kernel)]
  funext greek
  cases greek
  · unfold dataOf; rw [f1]; simp only [e1]; rfl
  · unfold dataOf; rw [f2]; simp only [e2]; rfl

/-- A variable without a slash at the end. -/
example : searched ⟨some [0x61], [], fun _ => none⟩ = [0x61, 0x2f] ∧ searched ⟨some [0x2f], [], fun _ => none⟩ = [0x2f] := by
  decide

end Columbus.Props
