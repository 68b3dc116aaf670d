import Verif.Props.Errors
import Verif.Proofs.Unicode
/-
The hypotheses of C36 hold for the two data files in /repo/share, with lower-casing as in Unicode.
-/

namespace Columbus.Props
open Columbus Spec ErrorValues

/-- share/latinAccentedLetterGroups.txt. -/
def latinFile : List Bytes := [
  [0x61, 0xc3, 0xa1, 0xc3, 0xa0, 0xc4, 0x83, 0xe1, 0xba, 0xaf, 0xe1, 0xba, 0xb1, 0xe1, 0xba, 0xb5, 0xe1, 0xba, 0xb3,
   0xc3, 0xa2, 0xe1, 0xba, 0xa5, 0xe1, 0xba, 0xa7, 0xe1, 0xba, 0xab, 0xe1, 0xba, 0xa9, 0xc7, 0x8e, 0xc3, 0xa5, 0xc7,
   0xbb, 0xc3, 0xa4, 0xc7, 0x9f, 0xc3, 0xa3, 0xc8, 0xa7, 0xc7, 0xa1, 0xc4, 0x85, 0xc4, 0x81, 0xe1, 0xba, 0xa3, 0xc8,
   0x81, 0xc8, 0x83, 0xe1, 0xba, 0xa1, 0xe1, 0xba, 0xb7, 0xe1, 0xba, 0xad, 0xe1, 0xb8, 0x81, 0xe2, 0xb1, 0xa5, 0xe1,
   0xb6, 0x8f],
  [0x62, 0xe1, 0xb8, 0x83, 0xe1, 0xb8, 0x85, 0xe1, 0xb8, 0x87, 0xc6, 0x80],
  [0x63, 0xc4, 0x87, 0xc4, 0x89, 0xc4, 0x8d, 0xc4, 0x8b, 0xc3, 0xa7, 0xe1, 0xb8, 0x89, 0xc8, 0xbc, 0xc6, 0x88],
  [0x64, 0xc4, 0x8f, 0xe1, 0xb8, 0x8b, 0xe1, 0xb8, 0x91, 0xe1, 0xb8, 0x8d, 0xe1, 0xb8, 0x93, 0xe1, 0xb8, 0x8f, 0xc4,
   0x91, 0xc9, 0x96],
  [0x65, 0xc3, 0xa9, 0xc3, 0xa8, 0xc4, 0x95, 0xc3, 0xaa, 0xe1, 0xba, 0xbf, 0xe1, 0xbb, 0x81, 0xe1, 0xbb, 0x85, 0xe1,
   0xbb, 0x83, 0xc4, 0x9b, 0xc3, 0xab, 0xe1, 0xba, 0xbd, 0xc4, 0x97, 0xc8, 0xa9, 0xe1, 0xb8, 0x9d, 0xc4, 0x99, 0xc4,
   0x93, 0xe1, 0xb8, 0x97, 0xe1, 0xb8, 0x95, 0xe1, 0xba, 0xbb, 0xc8, 0x85, 0xc8, 0x87, 0xe1, 0xba, 0xb9, 0xe1, 0xbb,
   0x87, 0xe1, 0xb8, 0x99, 0xe1, 0xb8, 0x9b, 0xc9, 0x87],
  [0x67, 0xc7, 0xb5, 0xc4, 0x9f, 0xc4, 0x9d, 0xc7, 0xa7, 0xc4, 0xa1, 0xc4, 0xa3, 0xe1, 0xb8, 0xa1, 0xc7, 0xa5, 0xc9,
   0xa0],
  [0x68, 0xc4, 0xa5, 0xc8, 0x9f, 0xe1, 0xb8, 0xa7, 0xe1, 0xb8, 0xa3, 0xe1, 0xb8, 0xa9, 0xe1, 0xb8, 0xa5, 0xe1, 0xb8,
   0xab, 0xe1, 0xba, 0x96],
  [0x69, 0xc3, 0xad, 0xc3, 0xac, 0xc4, 0xad, 0xc3, 0xae, 0xc7, 0x90, 0xc3, 0xaf, 0xe1, 0xb8, 0xaf, 0xc4, 0xa9, 0xc4,
   0xaf, 0xc4, 0xab, 0xe1, 0xbb, 0x89, 0xc8, 0x89, 0xc8, 0x8b, 0xe1, 0xbb, 0x8b, 0xe1, 0xb8, 0xad, 0xc9, 0xa8, 0xe1,
   0xb5, 0xbb, 0xe1, 0xb6, 0x96, 0xc4, 0xb0, 0x69],
  [0x6a, 0xc4, 0xb5, 0xc9, 0x89, 0xc7, 0xb0, 0xc8, 0xb7],
  [0x6b, 0xe1, 0xb8, 0xb1, 0xc7, 0xa9, 0xc4, 0xb7, 0xe1, 0xb8, 0xb3, 0xe1, 0xb8, 0xb5, 0xc6, 0x99, 0xe2, 0xb1, 0xaa],
  [0x6c, 0xc4, 0xba, 0xc4, 0xbe, 0xc4, 0xbc, 0xe1, 0xb8, 0xb7, 0xe1, 0xb8, 0xb9, 0xe1, 0xb8, 0xbd, 0xe1, 0xb8, 0xbb,
   0xc5, 0x82],
  [0x6d, 0xe1, 0xb8, 0xbf, 0xe1, 0xb9, 0x81, 0xe1, 0xb9, 0x83],
  [0x6e, 0xc5, 0x84, 0xc7, 0xb9, 0xc5, 0x88, 0xc3, 0xb1, 0xe1, 0xb9, 0x85, 0xc5, 0x86, 0xe1, 0xb9, 0x87, 0xe1, 0xb9,
   0x8b, 0xe1, 0xb9, 0x89, 0x6e],
  [0x6f, 0xc3, 0xb3, 0xc3, 0xb2, 0xc5, 0x8f, 0xc3, 0xb4, 0xe1, 0xbb, 0x91, 0xe1, 0xbb, 0x93, 0xe1, 0xbb, 0x97, 0xe1,
   0xbb, 0x95, 0xc7, 0x92, 0xc3, 0xb6, 0xc8, 0xab, 0xc5, 0x91, 0xc3, 0xb5, 0xe1, 0xb9, 0x8d, 0xe1, 0xb9, 0x8f, 0xc8,
   0xad, 0xc8, 0xaf, 0x6f, 0xcd, 0x98, 0xc8, 0xb1, 0xc3, 0xb8, 0xc7, 0xbf, 0xc7, 0xab, 0xc7, 0xad, 0xc5, 0x8d, 0xe1,
   0xb9, 0x93, 0xe1, 0xb9, 0x91, 0xe1, 0xbb, 0x8f, 0xc8, 0x8d, 0xc8, 0x8f, 0xc6, 0xa1, 0xe1, 0xbb, 0x9b, 0xe1, 0xbb,
   0x9d, 0xe1, 0xbb, 0xa1, 0xe1, 0xbb, 0x9f, 0xe1, 0xbb, 0xa3, 0xe1, 0xbb, 0x8d, 0xe1, 0xbb, 0x99, 0xc9, 0xb5],
  [0x70, 0xe1, 0xb9, 0x95, 0xe1, 0xb9, 0x97, 0xe1, 0xb5, 0xbd, 0xc6, 0xa5, 0x70, 0xcc, 0x83],
  [0x72, 0xc5, 0x95, 0xc5, 0x99, 0xe1, 0xb9, 0x99, 0xc5, 0x97, 0xc8, 0x91, 0xc8, 0x93, 0xe1, 0xb9, 0x9b, 0xe1, 0xb9,
   0x9d, 0xe1, 0xb9, 0x9f, 0xc9, 0x8d],
  [0x73, 0xc5, 0x9b, 0xe1, 0xb9, 0xa5, 0xc5, 0x9d, 0xc5, 0xa1, 0xe1, 0xb9, 0xa7, 0xe1, 0xb9, 0xa1, 0xc5, 0x9f, 0xe1,
   0xb9, 0xa3, 0xe1, 0xb9, 0xa9, 0xc8, 0x99, 0x73, 0xcc, 0xa9],
  [0x74, 0xc5, 0xa5, 0xe1, 0xb9, 0xab, 0xc5, 0xa3, 0xe1, 0xb9, 0xad, 0xc8, 0x9b, 0xe1, 0xb9, 0xb1, 0xe1, 0xb9, 0xaf,
   0xc5, 0xa7, 0xe2, 0xb1, 0xa6, 0xc6, 0xad, 0xca, 0x88, 0xe1, 0xba, 0x97],
  [0x75, 0xc3, 0xba, 0xc3, 0xb9, 0xc5, 0xad, 0xc3, 0xbb, 0xc7, 0x94, 0xc5, 0xaf, 0xc3, 0xbc, 0xc7, 0x98, 0xc7, 0x9c,
   0xc7, 0x9a, 0xc7, 0x96, 0xc5, 0xb1, 0xc5, 0xa9, 0xe1, 0xb9, 0xb9, 0xc5, 0xb3, 0xc5, 0xab, 0xe1, 0xb9, 0xbb, 0xe1,
   0xbb, 0xa7, 0xc8, 0x95, 0xc8, 0x97, 0xc6, 0xb0, 0xe1, 0xbb, 0xa9, 0xe1, 0xbb, 0xab, 0xe1, 0xbb, 0xaf, 0xe1, 0xbb,
   0xad, 0xe1, 0xbb, 0xb1, 0xe1, 0xbb, 0xa5, 0xe1, 0xb9, 0xb3, 0xe1, 0xb9, 0xb7, 0xe1, 0xb9, 0xb5],
  [0x76, 0xe1, 0xb9, 0xbd, 0xe1, 0xb9, 0xbf],
  [0x77, 0xe1, 0xba, 0x83, 0xe1, 0xba, 0x81, 0xc5, 0xb5, 0xe1, 0xba, 0x85, 0xe1, 0xba, 0x87, 0xe1, 0xba, 0x89, 0xe1,
   0xba, 0x98],
  [0x78, 0xe1, 0xba, 0x8d, 0xe1, 0xba, 0x8b],
  [0xc3, 0xbd, 0xe1, 0xbb, 0xb3, 0xc5, 0xb7, 0xe1, 0xba, 0x99, 0xc3, 0xbf, 0xe1, 0xbb, 0xb9, 0xe1, 0xba, 0x8f, 0xc8,
   0xb3, 0xe1, 0xbb, 0xb7, 0xe1, 0xbb, 0xb5, 0xc9, 0x8f, 0xc6, 0xb4],
  [0x7a, 0xc5, 0xba, 0xe1, 0xba, 0x91, 0xc5, 0xbe, 0xc5, 0xbc, 0xe1, 0xba, 0x93, 0xe1, 0xba, 0x95, 0xc6, 0xb6]]

/-- share/greekAccentedLetterGroups.txt. -/
def greekFile : List Bytes := [
  [0xce, 0xb1, 0xce, 0xac],
  [0xce, 0xb5, 0xce, 0xad],
  [0xce, 0xb7, 0xce, 0xae],
  [0xce, 0xb9, 0xce, 0xaf, 0xcf, 0x8a, 0xce, 0x90],
  [0xce, 0xbf, 0xcf, 0x8c],
  [0xcf, 0x85, 0xcf, 0x8d, 0xcf, 0x8b, 0xce, 0xb0],
  [0xcf, 0x89, 0xcf, 0x8e]]

/-- The data directory. -/
def sharedData : DataDir := fun greek => some (if greek then greekFile else latinFile)

/-- The group of a line. -/
def lineGroup (l : Bytes) : Word :=
  match @Word.ofUtf8 Example.debug Unicode.icu (l.takeWhile (· != 0)) with
  | .ok g => g
  | .error _ => []

/-- No letter of an earlier list is in a later one. -/
def disjointLists : List Word → Bool
  | [] => true
  | g :: gs => (g.all fun l => gs.all fun g' => !g'.contains l) && disjointLists gs

theorem disjointLists_pairwise {gs : List Word} (h : disjointLists gs = true) :
    gs.Pairwise fun g g' => ∀ l ∈ g, l ∉ g' := by
  induction gs with
  | nil => exact .nil
  | cons g gs ih =>
    rw [disjointLists, Bool.and_eq_true] at h
    refine List.pairwise_cons.2 ⟨?_, ih h.2⟩
    intro g' hg' l hl
    have := List.all_eq_true.1 (List.all_eq_true.1 h.1 l hl) g' hg'
    simpa using this

theorem lines_ok {ls : List Bytes}
    (h : (ls.all fun l => (@Word.ofUtf8 Example.debug Unicode.icu (l.takeWhile (· != 0))).toBool) = true) :
    List.Forall₂ (fun l g => @Word.ofUtf8 Example.debug Unicode.icu (l.takeWhile (· != 0)) = .ok g) ls (ls.map lineGroup) := by
  induction ls with
  | nil => exact .nil
  | cons l ls ih =>
    rw [List.all_cons, Bool.and_eq_true] at h
    refine .cons ?_ (ih h.2)
    rw [lineGroup]
    cases hw : @Word.ofUtf8 Example.debug Unicode.icu (l.takeWhile (· != 0)) with
    | ok g => rfl
    | error f => rw [hw] at h; exact absurd h.1 (by simp [Except.toBool])

/-- The standard errors load from the shipped files, once: also after lower-casing ("İ" becomes a second "i") no letter is
in two groups. -/
example : ∃ e, @addStandardErrors Example.debug Unicode.icu sharedData ErrorValues.new = (e, none) ∧
    (@addStandardErrors Example.debug Unicode.icu sharedData e).2 = some .runtimeError := by
  have hp : disjointLists (latinFile.map lineGroup ++ greekFile.map lineGroup) = true := by decide +kernel
  obtain ⟨e, h1, _, _, _, _, h2⟩ := @C36_standard Example.debug Unicode.icu sharedData latinFile greekFile _ _ rfl rfl
    (lines_ok (by decide +kernel)) (lines_ok (by decide +kernel)) (disjointLists_pairwise hp)
  refine ⟨e, h1, h2 ⟨lineGroup (greekFile.getD 0 []), ?_, by decide +kernel⟩⟩
  exact List.mem_append_right _ (List.mem_map.2 ⟨_, by simp [greekFile], rfl⟩)

end Columbus.Props
