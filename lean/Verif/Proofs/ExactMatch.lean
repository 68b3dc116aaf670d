import Verif.Spec.ExactMatch
/-
Lemmas on the exact match of numberpad.
-/

namespace Columbus
open Spec Apps

theorem shRead_quoted {cs : List (List Bytes)} {ws : List Bytes} {r : Bytes} (s : Bytes) : ∀ (w : Bytes), 0x27 ∉ s → 0 ∉ s →
    shRead cs ws (some w) true (s ++ 0x27 :: r) = shRead cs ws (some (w ++ s)) false r := by
  induction s with
  | nil => intro w _ _; simp [shRead]
  | cons b s ih =>
    intro w h1 h2
    simp only [List.mem_cons, not_or] at h1 h2
    rw [List.cons_append, shRead, if_neg (Ne.symm h2.1), if_pos rfl, if_neg (Ne.symm h1.1), ih _ h1.2 h2.2]
    simp

theorem shPlain_ne {b : Nat} (h : ShPlain b) : b ≠ 0 ∧ b ≠ 0x27 ∧ b ≠ 0x20 ∧ b ≠ 0x3b := by
  unfold ShPlain at h
  simp only [List.mem_cons, List.not_mem_nil, or_false] at h
  omega

theorem shRead_plain {cs : List (List Bytes)} {ws : List Bytes} {r : Bytes} (s : Bytes) : ∀ (w : Option Bytes), (∀ b ∈ s, ShPlain b) → s ≠ [] →
    shRead cs ws w false (s ++ r) = shRead cs ws (some (w.getD [] ++ s)) false r := by
  induction s with
  | nil => intro w _ h; exact absurd rfl h
  | cons b s ih =>
    intro w h _
    have hb := h b (by simp)
    obtain ⟨h1, h2, h3, h4⟩ := shPlain_ne hb
    rw [List.cons_append, shRead, if_neg h1, if_neg (by simp), if_neg h2, if_neg h3, if_neg h4, if_pos hb]
    by_cases hs : s = []
    · subst hs; simp
    · rw [ih _ (fun b hb => h b (by simp [hb])) hs]; simp

theorem padLoop_eq (q : Bytes) : ∀ re, padLoop re q = re ++ q.flatMap padClass := by
  induction q with
  | nil => intro re; simp [padLoop]
  | cons c q ih => intro re; rw [padLoop, ih]; simp

theorem cstr_self {s : Bytes} (h : 0 ∉ s) : cstr s = s := by
  unfold cstr
  induction s with
  | nil => rfl
  | cons b s ih =>
    simp only [List.mem_cons, not_or] at h
    rw [List.takeWhile_cons_of_pos (by simpa using Ne.symm h.1), ih h.2]

theorem padRegex_eq {q : Bytes} (h : 0 ∉ q) : padRegex q = 0x5e :: q.flatMap padClass := by
  rw [padRegex, cstr_self h, padLoop_eq]; rfl

/-- The letters of a key. -/
def lettersOn (c : Nat) : Bytes :=
  match keyLetters.find? (·.1 == c) with
  | some x => x.2
  | none => []

/-- What a key is for `grep`. -/
def keyAtom (c : Nat) : Atom := if lettersOn c = [] then .char c else .oneOf (c :: lettersOn c)

theorem key_cases (c : Nat) : (c ∈ [0x32, 0x33, 0x34, 0x35, 0x36, 0x37, 0x38, 0x39]) ∨
    (c ∉ [0x32, 0x33, 0x34, 0x35, 0x36, 0x37, 0x38, 0x39] ∧ padClass c = [c] ∧ lettersOn c = [] ∧ ∀ ls, (c, ls) ∉ keyLetters) := by
  by_cases h : c ∈ [0x32, 0x33, 0x34, 0x35, 0x36, 0x37, 0x38, 0x39]
  · exact Or.inl h
  · refine Or.inr ⟨h, ?_⟩
    simp only [List.mem_cons, List.not_mem_nil, or_false, not_or] at h
    obtain ⟨h2, h3, h4, h5, h6, h7, h8, h9⟩ := h
    refine ⟨?_, ?_, ?_⟩
    · unfold padClass
      split
      · subst_vars; rfl
      · split
        · subst_vars; rfl
        · rfl
    · simp [lettersOn, keyLetters, List.find?, Ne.symm h2, Ne.symm h3, Ne.symm h4, Ne.symm h5, Ne.symm h6, Ne.symm h7,
        Ne.symm h8, Ne.symm h9, beq_eq_false_iff_ne.2]
    · intro ls
      simp [keyLetters, h2, h3, h4, h5, h6, h7, h8, h9]

theorem keyAtom_fits (c b : Nat) : (keyAtom c).Fits b ↔ Dials c b := by
  unfold keyAtom Dials
  rcases key_cases c with h | ⟨_, _, h2, h3⟩
  · simp only [List.mem_cons, List.not_mem_nil, or_false] at h
    rcases h with rfl | rfl | rfl | rfl | rfl | rfl | rfl | rfl <;>
      simp [lettersOn, keyLetters, List.find?, Atom.Fits, ascii]
  · rw [h2, if_pos rfl]
    simp [Atom.Fits, h3]

theorem breRead_key {atoms : List (Atom × Bool)} {r : Bytes} {c : Nat} (hc : Ordinary c) :
    breRead atoms none (padClass c ++ r) = breRead (atoms ++ [(keyAtom c, false)]) none r := by
  unfold keyAtom
  rcases key_cases c with h | ⟨_, h1, h2, h3⟩
  · simp only [List.mem_cons, List.not_mem_nil, or_false] at h
    rcases h with rfl | rfl | rfl | rfl | rfl | rfl | rfl | rfl <;>
      simp [lettersOn, keyLetters, List.find?, ascii, padClass, breRead]
  · rw [h1, h2, if_pos rfl]
    unfold Ordinary at hc
    simp only [List.mem_cons, List.not_mem_nil, or_false, not_or] at hc
    obtain ⟨a0, a1, a2, a3, a4, a5, a6, a7, a8, a9⟩ := hc
    simp [breRead, a0, a1, a2, a4, a5, a6, a7, a8, a9]

theorem breRead_keys (q : Bytes) (hq : ∀ c ∈ q, Ordinary c) : ∀ atoms,
    breRead atoms none (q.flatMap padClass) = some (atoms ++ q.map fun c => (keyAtom c, false)) := by
  induction q with
  | nil => intro atoms; simp [breRead]
  | cons c q ih =>
    intro atoms
    rw [List.flatMap_cons, breRead_key (hq c (by simp)), ih (fun c hc => hq c (by simp [hc]))]
    simp

theorem beginsWith_keys (q : Bytes) : ∀ l, BeginsWith (q.map fun c => (keyAtom c, false)) l ↔ Dialled q l := by
  induction q with
  | nil => intro l; exact ⟨fun _ => ⟨[], List.nil_prefix, .nil⟩, fun _ => .done⟩
  | cons c q ih =>
    intro l
    constructor
    · intro h
      cases h with
      | one h1 h2 =>
        obtain ⟨p, hp, hq⟩ := (ih _).1 h2
        exact ⟨_ :: p, List.cons_prefix_cons.2 ⟨rfl, hp⟩, .cons ((keyAtom_fits _ _).1 h1) hq⟩
    · rintro ⟨p, hp, hq⟩
      cases hq with
      | cons h1 h2 =>
        cases l with
        | nil => simp at hp
        | cons b l =>
          obtain ⟨rfl, hp'⟩ := List.cons_prefix_cons.1 hp
          exact .one ((keyAtom_fits _ _).2 h1) ((ih _).2 ⟨_, hp', h2⟩)

theorem padClass_noQuote {c : Nat} (h : c ≠ 0x27) (h0 : c ≠ 0) : 0x27 ∉ padClass c ∧ 0 ∉ padClass c := by
  rcases key_cases c with h | ⟨_, h1, _⟩
  · simp only [List.mem_cons, List.not_mem_nil, or_false] at h
    rcases h with rfl | rfl | rfl | rfl | rfl | rfl | rfl | rfl <;> decide
  · rw [h1]; simp [Ne.symm h, Ne.symm h0]

/-- A beginning without carriage return and NUL is one of the text. -/
theorem prefix_textOf {p l : Bytes} (h : p <+: l) (hp : 0x0d ∉ p) (hp0 : 0 ∉ p) : p <+: textOf l := by
  suffices hm : p <+: marked l by
    obtain ⟨s, hs⟩ := hm
    unfold textOf beforeNul
    rw [← hs, List.takeWhile_append_of_pos]
    · exact List.prefix_append _ _
    · intro b hb
      simp only [bne_iff_ne, ne_eq]
      rintro rfl; exact hp0 hb
  unfold marked
  split
  · rename_i x r e
    have el : l = r.reverse ++ [0x0d, x] := by
      have := congrArg List.reverse e
      simpa using this
    obtain ⟨s, hs⟩ := h
    rw [el] at hs
    rcases List.append_eq_append_iff.1 hs with ⟨a, ha, _⟩ | ⟨c, hc, hc'⟩
    · exact ⟨a ++ [0, x], by rw [ha, List.append_assoc]⟩
    · cases c with
      | nil => rw [hc]; simp
      | cons b c =>
        simp only [List.cons_append, List.cons.injEq] at hc'
        exact absurd (by rw [hc, hc'.1]; simp) hp
  · exact h

/-- The first word has the whole beginning, if there is no blank in it. -/
theorem prefix_token {p s t : Bytes} {ts : List Bytes} (ht : Tokens s (t :: ts)) (h : p <+: s) (hp : p ≠ [])
    (hb : ∀ b ∈ p, ¬ IsBlank b) : p <+: t := by
  cases ht with
  | @tok pre _ r _ h1 h2 h3 h4 h5 =>
    have hpre : pre = [] := by
      cases pre with
      | nil => rfl
      | cons b pre =>
        cases p with
        | nil => exact absurd rfl hp
        | cons c p =>
          rw [List.cons_append, List.cons_append] at h
          obtain ⟨rfl, _⟩ := List.cons_prefix_cons.1 h
          exact absurd (h1 c (by simp)) (hb c (by simp))
    subst hpre
    obtain ⟨s, hs⟩ := h
    rw [List.nil_append] at hs
    rcases List.append_eq_append_iff.1 hs with ⟨a, ha, _⟩ | ⟨c, hc, hc'⟩
    · exact ⟨a, ha.symm⟩
    · cases c with
      | nil => rw [hc]; simp
      | cons b c => exact absurd (h4 b (by rw [hc']; rfl)) (hb b (by rw [hc]; simp))

theorem utf16_low {w : Word} {b : Nat} {c : List Nat} (h : Utf16 w (b :: c)) (hb : b < 0xD800) :
    ∃ r, w = BitVec.ofNat 16 b :: r ∧ Utf16 r c := by
  generalize hl : b :: c = l at h
  cases h with
  | nil => cases hl
  | bmp _ h =>
    injection hl with h1 h2
    subst h1 h2
    exact ⟨_, by simp, h⟩
  | pair =>
    injection hl with h1 h2
    exfalso
    clear h2
    omega

/-- ASCII characters that are not changed by lower-casing begin the letters as they begin the text. -/
theorem prefix_letters [Icu] (p : Bytes) : ∀ {t : Bytes} {w : Word}, LowerLetters t w → p <+: t →
    (∀ b ∈ p, b ≤ 0x7f ∧ Icu.lower (BitVec.ofNat 16 b) = BitVec.ofNat 16 b) → p.map (BitVec.ofNat 16) <+: w := by
  induction p with
  | nil => intro t w _ _ _; exact List.nil_prefix
  | cons b p ih =>
    intro t w hw ht hp
    cases t with
    | nil => simp at ht
    | cons c t =>
      obtain ⟨rfl, ht'⟩ := List.cons_prefix_cons.1 ht
      obtain ⟨h1, h2⟩ := hp b (by simp)
      obtain ⟨cps, hu, hv⟩ := hw
      cases hu with
      | one _ hu =>
        have hb : lowerCp b = b := by
          rw [lowerCp, if_pos (by omega), h2, BitVec.toNat_ofNat]; omega
        rw [List.map_cons, hb] at hv
        obtain ⟨r, rfl, hv'⟩ := utf16_low hv (by omega)
        exact List.cons_prefix_cons.2 ⟨rfl, ih ⟨_, hu, hv'⟩ ht' fun b hb => hp b (by simp [hb])⟩
      | two => omega
      | three => omega
      | four => omega

theorem dials_ascii {d c : Nat} (hd : 0x30 ≤ d ∧ d ≤ 0x39) (h : Dials d c) : 0x30 ≤ c ∧ c ≤ 0x39 ∨ 0x61 ≤ c ∧ c ≤ 0x7a := by
  rcases h with rfl | ⟨ls, h1, h2⟩
  · exact Or.inl hd
  · right
    simp only [keyLetters, List.mem_cons, List.not_mem_nil, or_false, Prod.mk.injEq] at h1
    rcases h1 with ⟨rfl, rfl⟩ | ⟨rfl, rfl⟩ | ⟨rfl, rfl⟩ | ⟨rfl, rfl⟩ | ⟨rfl, rfl⟩ | ⟨rfl, rfl⟩ | ⟨rfl, rfl⟩ | ⟨rfl, rfl⟩ <;>
      simp [ascii] at h2 <;> omega

end Columbus
