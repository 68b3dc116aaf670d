import Verif.Proofs.ExactMatch
import Verif.Proofs.AppSc
import Verif.Proofs.Unicode
import Verif.Props.Apps
/-
The exact match of numberpad: C90.
-/

namespace Columbus.Props
open Columbus Spec Apps

/-- C90. For a query without quotes and a plain file name the shell runs exactly one command: `grep` with the regular
expression and the file. Missing from the full claim: other queries and names, see the theorems below. -/
theorem C90_command_partial (q f : Bytes) (hq : 0x27 ∉ q) (h0 : 0 ∉ q) (hf : PlainName f) :
    shell (padCommand q f) = some [[ascii "grep", padRegex q, f]] := by
  obtain ⟨h1, _, h3⟩ := hf
  have hf0 : 0 ∉ f := fun h => (shPlain_ne (h3 0 h)).1 rfl
  have hre : 0x27 ∉ padRegex q ∧ 0 ∉ padRegex q := by
    rw [padRegex_eq h0]
    constructor <;> intro h
    · rcases List.mem_cons.1 h with h | h
      · simp at h
      · obtain ⟨c, hc, h⟩ := List.mem_flatMap.1 h
        exact (padClass_noQuote (fun e => hq (e ▸ hc)) (fun e => h0 (e ▸ hc))).1 h
    · rcases List.mem_cons.1 h with h | h
      · simp at h
      · obtain ⟨c, hc, h⟩ := List.mem_flatMap.1 h
        exact (padClass_noQuote (fun e => hq (e ▸ hc)) (fun e => h0 (e ▸ hc))).2 h
  have e : padCommand q f = ascii "grep" ++ (0x20 :: 0x27 :: (padRegex q ++ 0x27 :: 0x20 :: (f ++ []))) := by
    unfold padCommand
    rw [cstr_self hf0]
    simp [grepText, ascii]
  rw [shell, e, shRead_plain _ _ (by decide) (by decide), shRead, if_neg (by decide), if_neg (by decide), if_neg (by decide),
    if_pos rfl, shRead, if_neg (by decide), if_neg (by decide), if_pos rfl, Option.getD_none, shRead_quoted _ _ hre.1 hre.2, shRead,
    if_neg (by decide), if_neg (by decide), if_neg (by decide), if_pos rfl, shRead_plain _ _ h3 h1]
  simp [shRead]

/-- C90. For a query of ordinary characters the expression makes `grep` print exactly the lines that begin with something
that was dialled. Missing from the full claim: characters with a meaning in expressions, the key `*` among them. -/
theorem C90_lines_partial (q : Bytes) (hq : ∀ c ∈ q, Ordinary c) : GrepPrints (padRegex q) (Dialled q) := by
  have h0 : 0 ∉ q := fun h => hq 0 h (by decide)
  exact ⟨_, _, padRegex_eq h0, by rw [breRead_keys q hq]; rfl, fun l => beginsWith_keys q l⟩

/-- The digits are ordinary. -/
example : (∀ c ∈ ascii "0123456789", Ordinary c) ∧ (0x27 ∉ ascii "0123456789") ∧ PlainName (ascii "/tmp/names.txt") := by
  refine ⟨?_, by decide, by decide, by decide, ?_⟩
  · intro c hc
    have : c ∈ [0x30, 0x31, 0x32, 0x33, 0x34, 0x35, 0x36, 0x37, 0x38, 0x39] := hc
    simp only [List.mem_cons, List.not_mem_nil, or_false] at this
    rcases this with rfl | rfl | rfl | rfl | rfl | rfl | rfl | rfl | rfl | rfl <;> (unfold Ordinary; decide)
  · decide

/-- What 2 6 dials: "am", "26", but not "dm". -/
example : Dialled (ascii "26") (ascii "amber") ∧ Dialled (ascii "26") (ascii "26x") ∧ ¬ Dialled (ascii "26") (ascii "dm") := by
  refine ⟨⟨ascii "am", by decide, ?_⟩, ⟨ascii "26", by decide, ?_⟩, ?_⟩
  · exact .cons (Or.inr ⟨ascii "abc", by decide, by decide⟩) (.cons (Or.inr ⟨ascii "mno", by decide, by decide⟩) .nil)
  · exact .cons (Or.inl rfl) (.cons (Or.inl rfl) .nil)
  · rw [← beginsWith_keys]
    intro h
    have h' : BeginsWith [(.oneOf (ascii "2abc"), false), (.oneOf (ascii "6mno"), false)] [0x64, 0x6d] := h
    cases h' with
    | one h _ => simp [Atom.Fits, ascii] at h

/-! The lines found by the search as well -/

section
variable [Build] [Icu]

/-- The key stands for the letter, as prices go. -/
theorem pad_sub (n : Nat) (d c : Nat) (hd : 0x30 ≤ d ∧ d ≤ 0x39) (h : Dials d c) :
    (configured padErrors n).sub (BitVec.ofNat 16 d) (BitVec.ofNat 16 c) = 0 := by
  obtain ⟨e, epad, hon, _⟩ := C38_partial []
  have hpad : padErrors = e.setSubstringMode := by
    simp only [padErrors, afterOps, List.foldl_cons, List.foldl_nil, ErrOp.run] at epad ⊢
    rw [epad]; rfl
  show (match padErrors.getSubstituteError _ _ with | .ok v => v | .error _ => 0) = 0
  rcases h with rfl | ⟨ls, h1, h2⟩
  · rw [padErrors, C30_partial _ _ (Or.inr fun v hv => by simp at hv)]
  · have hb : OnButton (BitVec.ofNat 16 d) (BitVec.ofNat 16 c) := by
      simp only [keyLetters, List.mem_cons, List.not_mem_nil, or_false, Prod.mk.injEq] at h1
      rcases h1 with ⟨rfl, rfl⟩ | ⟨rfl, rfl⟩ | ⟨rfl, rfl⟩ | ⟨rfl, rfl⟩ | ⟨rfl, rfl⟩ | ⟨rfl, rfl⟩ | ⟨rfl, rfl⟩ | ⟨rfl, rfl⟩ <;>
        simp [ascii] at h2 <;> simp [OnButton, padButtons]
      all_goals first
        | (rcases h2 with rfl | rfl | rfl <;> simp)
        | (rcases h2 with rfl | rfl | rfl | rfl <;> simp)
    have : padErrors.getSubstituteError (BitVec.ofNat 16 d) (BitVec.ofNat 16 c) = .ok 0 := by rw [hpad]; exact (hon _ _ hb).1
    rw [this]

/-- Any price is at least 15 for each letter that the word has more. -/
theorem pad_far {x w : Word} {v : Int} (h : PriceWith padErrors x w v) : 15 * ((w.length : Int) - x.length) ≤ v := by
  obtain ⟨e, epad, _⟩ := C38_partial []
  have hpad : padErrors = e.setSubstringMode := by
    simp only [padErrors, afterOps, List.foldl_cons, List.foldl_nil, ErrOp.run] at epad ⊢
    rw [epad]; rfl
  obtain ⟨h1, h2, h3, h4, h5, h6, h7⟩ := pad_preset.nonNeg x.length
  have m1 : 15 ≤ (configured padErrors x.length).startIns := by
    show 15 ≤ padErrors.getStartInsertionError x.length
    unfold ErrorValues.getStartInsertionError
    rw [pad_preset.tame.ins, hpad]
    split
    · exact le_refl _
    · decide
  have m2 : 15 ≤ (configured padErrors x.length).endDel := by
    show 15 ≤ padErrors.endDeletionError
    rw [hpad]; exact le_refl _
  have m3 : 15 ≤ (configured padErrors x.length).del := by
    show 15 ≤ padErrors.deletionError
    rw [pad_preset.tame.del]; decide
  have key : ∀ {d i : Nat} {v : Int}, Script (configured padErrors x.length) x w d i v → 15 * ((d : Int) - i) ≤ v := by
    intro d i v h
    induction h with
    | start => simp
    | extra _ _ ih => split <;> push_cast <;> omega
    | missing _ _ ih => split <;> (try split) <;> push_cast <;> omega
    | subst _ _ _ ih => rename_i a b _ _ _; have := h7 a b; push_cast; omega
    | swap _ _ _ _ _ ih => push_cast; omega
  exact key h.1

/-- C90. A line that begins with what was dialled, digits only, is also shown by the search, if its first word is at most 13
letters longer than the query (6 for a query of one digit). -/
theorem C90_agrees_partial (hlow : ∀ l : Letter, 0x61 ≤ l.toNat → l.toNat ≤ 0x7a → Icu.lower l = l) (q l : Bytes) (hq : q ≠ [])
    (hd : ∀ c ∈ q, 0x30 ≤ c ∧ c ≤ 0x39) (h : Dialled q l) (t : Bytes) (ts : List Bytes) (w : Word) (ht : Tokens (textOf l) (t :: ts))
    (hw : LowerLetters t w) (hlen : w.length ≤ q.length + if q.length < 2 then 6 else 13) :
    Close (PriceWith padErrors) q (textOf l) := by
  obtain ⟨p, hp, hqp⟩ := h
  have hpa : ∀ c ∈ p, 0x30 ≤ c ∧ c ≤ 0x39 ∨ 0x61 ≤ c ∧ c ≤ 0x7a := by
    clear * - hd hqp
    induction hqp with
    | nil => simp
    | cons h1 _ ih =>
      intro c hc
      rcases List.mem_cons.1 hc with rfl | hc
      · exact dials_ascii (hd _ (by simp)) h1
      · exact ih (fun c hc => hd c (by simp [hc])) c hc
  have hlowers : ∀ c, (0x30 ≤ c ∧ c ≤ 0x39 ∨ 0x61 ≤ c ∧ c ≤ 0x7a) → c ≤ 0x7f ∧ Icu.lower (BitVec.ofNat 16 c) = BitVec.ofNat 16 c := by
    intro c hc
    refine ⟨by omega, ?_⟩
    have hn : (BitVec.ofNat 16 c).toNat = c := by rw [BitVec.toNat_ofNat]; omega
    rcases hc with hc | hc
    · exact Icu.lower_control _ (by omega)
    · exact hlow _ (by omega) (by omega)
  have hblank : ∀ c, (0x30 ≤ c ∧ c ≤ 0x39 ∨ 0x61 ≤ c ∧ c ≤ 0x7a) → ¬ IsBlank c := by
    intro c hc; unfold IsBlank; omega
  have hpne : p ≠ [] := by rintro rfl; cases hqp; exact hq rfl
  have h1 := prefix_textOf hp (fun h => by have := hpa _ h; omega) (fun h => by have := hpa _ h; omega)
  have h2 := prefix_token ht h1 hpne fun b hb => hblank b (hpa b hb)
  have h3 := prefix_letters p hw h2 fun b hb => hlowers b (hpa b hb)
  have hx : HasWord q (q.map (BitVec.ofNat 16)) := by
    refine ⟨[q], ?_, q, by simp, q, (utf8_ascii fun b hb => by have := hd b hb; omega).2 rfl, ?_⟩
    · have := TokensBy.tok (S := IsBlank) (p := []) (t := q) (r := []) (ts := []) (by simp) hq (fun b hb => hblank b (Or.inl (hd b hb)))
        (by simp) (.done (by simp))
      simpa using this
    · clear * - hd hlowers
      induction q with
      | nil => exact .nil
      | cons c q ih =>
        have hc := hd c (by simp)
        have e : lowerCp c = (BitVec.ofNat 16 c).toNat := by
          rw [lowerCp, if_pos (by omega), (hlowers c (Or.inl hc)).2]
        rw [List.map_cons, List.map_cons, e]
        exact .bmp (by left; rw [BitVec.toNat_ofNat]; omega) (ih fun c hc => hd c (by simp [hc]))
  have hlq : (q.map (BitVec.ofNat 16)).length = q.length := by simp
  generalize hxe : q.map (BitVec.ofNat 16) = x at hx hlq
  have hle : q.length ≤ w.length := by
    have := h3.length_le; rw [List.length_map, ← hqp.length_eq] at this; exact this
  have hscript : ∀ n ≤ q.length, Script (configured padErrors x.length) x w n n 0 := by
    intro n
    induction n with
    | zero => intro _; exact .start
    | succ n ih =>
      intro hn
      have hnp : n < p.length := by rw [← hqp.length_eq]; omega
      have g1 : x[n]? = some (BitVec.ofNat 16 q[n]) := by rw [← hxe, List.getElem?_map, List.getElem?_eq_getElem (by omega)]; rfl
      have g2 : w[n]? = some (BitVec.ofNat 16 p[n]) := by
        obtain ⟨r, rfl⟩ := h3
        rw [List.getElem?_append_left (by simpa using hnp), List.getElem?_map, List.getElem?_eq_getElem hnp]; rfl
      have g3 := Script.subst (ih (by omega)) g1 g2
      have g4 := hqp.get (i := n) (by omega) hnp
      simp only [List.get_eq_getElem] at g4
      rwa [pad_sub _ _ _ (hd _ (List.getElem_mem _)) g4, add_zero] at g3
  have hend : (configured padErrors x.length).endDel = 15 := by
    obtain ⟨e, epad, _⟩ := C38_partial []
    have hpad : padErrors = e.setSubstringMode := by
      simp only [padErrors, afterOps, List.foldl_cons, List.foldl_nil, ErrOp.run] at epad ⊢
      rw [epad]; rfl
    show padErrors.endDeletionError = 15
    rw [hpad]; rfl
  have hrest : ∀ k, q.length + k ≤ w.length → Script (configured padErrors x.length) x w (q.length + k) q.length (15 * k) := by
    intro k
    induction k with
    | zero => intro _; exact hscript _ (le_refl _)
    | succ k ih =>
      intro hk
      have g := Script.missing (ih (by omega)) (by omega)
      have hq0 : q.length ≠ 0 := by simpa using hq
      rw [if_neg hq0, if_pos hlq.symm, hend] at g
      rw [← add_assoc]
      convert g using 1
      push_cast; omega
  have hall := hrest (w.length - q.length) (by omega)
  rw [show q.length + (w.length - q.length) = w.length by omega, ← hlq] at hall
  refine ⟨x, w, _, hx, ⟨_, ht, t, by simp, hw⟩, best_isEditCost, (D_le hall).trans ?_⟩
  rw [hlq]
  split at hlen <;> omega

/-- C90. In the list of the tool: such a line is in it. -/
theorem C90_shown_partial [Runtime] [Fp] (hlow : ∀ l : Letter, 0x61 ≤ l.toNat → l.toNat ≤ 0x7a → Icu.lower l = l) (app : App Bytes)
    (lines : List Bytes) (ha : Answers doSearch app lines textOf fun q l => Close (PriceWith padErrors) q (textOf l)) (q : Bytes)
    (hq : q ≠ []) (hlq : q.length ≤ 10000000) (hd : ∀ c ∈ q, 0x30 ≤ c ∧ c ≤ 0x39) (l : Bytes) (hl : l ∈ lines) (h : Dialled q l)
    (t : Bytes) (ts : List Bytes) (w : Word) (ht : Tokens (textOf l) (t :: ts)) (hw : LowerLetters t w)
    (hlen : w.length ≤ q.length + if q.length < 2 then 6 else 13) :
    ∃ rows v, doSearch app q = .ok (app, .rows rows) ∧ (textOf l, v) ∈ rows := by
  have hc : CString q := ⟨fun h => by have := hd _ h; omega, hlq⟩
  have hwf : WellFormed q := wellFormed_ascii fun b hb => by have := hd b hb; omega
  obtain ⟨found, k, rows, e1, _, _, hfr, _, _, hm⟩ := (ha q hc).2 hwf
  obtain ⟨i, hi⟩ := List.mem_iff_getElem?.1 hl
  have hmem := (hm i).2 ⟨l, hi, C90_agrees_partial hlow q l hq hd h t ts w ht hw hlen⟩
  clear * - e1 hfr hmem hi
  obtain ⟨x, hx, rfl⟩ := List.mem_map.1 hmem
  refine ⟨rows, ?_⟩
  suffices hs : ∃ v, (textOf l, v) ∈ rows by obtain ⟨v, hv⟩ := hs; exact ⟨v, e1, hv⟩
  clear e1 hmem
  induction hfr with
  | nil => cases hx
  | cons h1 _ ih =>
    rename_i a r _ _ _
    rcases List.mem_cons.1 hx with rfl | hx
    · obtain ⟨⟨it, h2, h3⟩, _⟩ := h1
      rw [hi] at h2
      injection h2 with h2
      subst h2
      exact ⟨r.2, by rw [← h3]; simp⟩
    · obtain ⟨v, hv⟩ := ih hx
      exact ⟨v, by simp [hv]⟩

end

/-- The lower-casing of Unicode leaves lower case letters alone. -/
example : let _ := Unicode.icu
    ∀ l : Letter, 0x61 ≤ l.toNat → l.toNat ≤ 0x7a → Icu.lower l = l := by
  intro _ l h1 h2
  apply BitVec.eq_of_toNat_eq
  show (Unicode.lower16 l).toNat = l.toNat
  rw [Unicode.lower16_toNat]
  have h : ∀ n : Fin 26, Unicode.lower (0x61 + n) = 0x61 + n := by decide +kernel
  have := h ⟨l.toNat - 0x61, by omega⟩
  simpa [Nat.add_sub_cancel' h1] using this

/-- "aaaaaaaaaaaaaaaaaaaaaaaaa". -/
def longLine : Bytes := List.replicate 25 0x61

/-- The other hypotheses of C90_agrees_partial can be met: "amber" is dialled by 2 6. -/
example : let _ := Unicode.icu
    Tokens (textOf (ascii "amber road")) [ascii "amber", ascii "road"] ∧
      LowerLetters (ascii "amber") [0x61#16, 0x6d#16, 0x62#16, 0x65#16, 0x72#16] := by
  intro _
  constructor
  · have e : textOf (ascii "amber road") = [] ++ ascii "amber" ++ ([0x20] ++ ascii "road" ++ []) := by decide
    rw [e]
    exact .tok (by simp) (by decide) (by decide) (by simp [IsBlank]) (.tok (by simp [IsBlank]) (by decide) (by decide) (by simp) (.done (by simp)))
  · refine ⟨ascii "amber", (utf8_ascii (by decide)).2 rfl, ?_⟩
    rw [show (ascii "amber").map lowerCp = [0x61, 0x6d, 0x62, 0x65, 0x72] by decide +kernel]
    exact .bmp (by simp) (.bmp (by simp) (.bmp (by simp) (.bmp (by simp) (.bmp (by simp) .nil))))

/-- C90 is false of longer words: a line of 25 letters "a" begins with what 2 dials, but the search does not show it. -/
theorem C90_false_agrees [B : Build] : let _ := Example.icu
    Dialled (ascii "2") longLine ∧ ¬ Close (PriceWith padErrors) (ascii "2") (textOf longLine) := by
  intro _
  constructor
  · exact ⟨[0x61], by decide, .cons (Or.inr ⟨ascii "abc", by decide, by decide⟩) .nil⟩
  · rintro ⟨x, w, v, hx, hw, hv, hle⟩
    have h1 : lineWords (ascii "2") = [[0x32#16]] ∧ lineWords (textOf longLine) = [List.replicate 25 0x61#16] := by
      obtain ⟨b⟩ := B
      cases b <;> decide +kernel
    rw [← lineWords_mem (wellFormed_ascii (by decide)), h1.1, List.mem_singleton] at hx
    rw [← lineWords_mem (wellFormed_ascii (by decide)), h1.2, List.mem_singleton] at hw
    subst hx hw
    have h2 := pad_far hv
    simp only [List.length_replicate, List.length_cons, List.length_nil] at h2 hle
    rw [if_pos (by decide)] at hle
    omega

/-- C90 is false: the star key is on the pad, but to `grep` it is no character: after 2 and the star every line is printed. -/
theorem C90_false_star : GrepPrints (padRegex (ascii "2*")) (fun _ => True) ∧ ¬ Dialled (ascii "2*") (ascii "xyz") := by
  constructor
  · refine ⟨[0x5b, 0x32, 0x61, 0x62, 0x63, 0x5d, 0x2a], [(.oneOf (ascii "2abc"), true)], by decide, by rfl, fun l => ⟨fun _ => trivial, fun _ => .skip .done⟩⟩
  · rintro ⟨p, hp, hd⟩
    rw [show ascii "2*" = [0x32, 0x2a] by decide] at hd
    rw [show ascii "xyz" = [0x78, 0x79, 0x7a] by decide] at hp
    cases hd with
    | cons h1 h2 =>
      cases h2 with
      | cons h3 h4 =>
        obtain ⟨_, hp⟩ := List.cons_prefix_cons.1 hp
        obtain ⟨e, _⟩ := List.cons_prefix_cons.1 hp
        subst e
        simp [Dials, keyLetters] at h3

/-- C90 is false: a quote in the query ends the expression; what follows is run by the shell. -/
theorem C90_false_quote : shell (padCommand (ascii "' /dev/null;reboot '") (ascii "names.txt")) =
    some [[ascii "grep", ascii "^", ascii "/dev/null"], [ascii "reboot", [], ascii "names.txt"]] := by decide +kernel

/-- C90 is false: a file name with a blank becomes two. -/
theorem C90_false_name : shell (padCommand (ascii "0") (ascii "my names")) =
    some [[ascii "grep", ascii "^0", ascii "my", ascii "names"]] := by decide +kernel

end Columbus.Props
