import Verif.Proofs.Word
/-
Splitting text into words.
-/

namespace Columbus
open Spec

theorem isInList_blank (b : Nat) : isInList (charToLetter b) whitespaceLetters = true ↔ IsBlank b := by
  have h := isWhitespace_iff (charToLetter b)
  rw [isWhitespace] at h
  rw [h]
  unfold charToLetter
  split
  · rw [BitVec.toNat_ofNat, Nat.mod_eq_of_lt (by omega)]
  · rw [BitVec.toNat_ofNat]; unfold IsBlank; omega

theorem dropWhile_pre {α : Type} {p : α → Bool} {a b : List α} (h : ∀ x ∈ a, p x = true) :
    (a ++ b).dropWhile p = b.dropWhile p := by
  induction a with
  | nil => rfl
  | cons x a ih =>
    rw [List.cons_append, List.dropWhile_cons, if_pos (h x (by simp)), ih fun y hy => h y (by simp [hy])]

theorem takeWhile_pre {α : Type} {p : α → Bool} {a b : List α} (h : ∀ x ∈ a, p x = true) :
    (a ++ b).takeWhile p = a ++ b.takeWhile p := by
  induction a with
  | nil => rfl
  | cons x a ih =>
    rw [List.cons_append, List.takeWhile_cons, if_pos (h x (by simp)), ih fun y hy => h y (by simp [hy])]; rfl

theorem dropWhile_stop {α : Type} {p : α → Bool} {b : List α} (h : ∀ x, b.head? = some x → p x = false) :
    b.dropWhile p = b := by
  cases b with
  | nil => rfl
  | cons x b => rw [List.dropWhile_cons, h x rfl]; rfl

theorem takeWhile_stop {α : Type} {p : α → Bool} {b : List α} (h : ∀ x, b.head? = some x → p x = false) :
    b.takeWhile p = [] := by
  cases b with
  | nil => rfl
  | cons x b => rw [List.takeWhile_cons, h x rfl]; rfl

/-- Conversion of every token, stopping at the first failure. -/
def wordsOf [Build] [Icu] : List Bytes → M (List Word)
  | [] => .ok []
  | t :: ts => do
    let w ← Word.ofUtf8 t
    let ws ← wordsOf ts
    .ok (w :: ws)

theorem tokens_nil {S : Nat → Prop} {s ts} (h : TokensBy S s ts) (hs : s = []) : ts = [] := by
  induction h with
  | done => rfl
  | tok hp ht _ _ _ _ =>
    simp only [List.append_eq_nil_iff] at hs
    exact absurd hs.1.2 ht

theorem splitLoop_tokens [Build] [Icu] {S : Nat → Prop} {cs : List Letter}
    (hS : ∀ b, isInList (charToLetter b) cs = true ↔ S b) {s ts} (h : TokensBy S s ts) :
    ∀ (fuel : Nat) (acc : List Word), s.length < fuel →
      splitLoop cs fuel s acc = (wordsOf ts >>= fun ws => .ok (acc ++ ws)) := by
  induction h with
  | done hp =>
    rename_i p
    intro fuel acc hf
    obtain ⟨fuel, rfl⟩ : ∃ k, fuel = k + 1 := ⟨fuel - 1, by omega⟩
    have : p.dropWhile (fun b => isInList (charToLetter b) cs) = [] := by
      rw [← List.append_nil p, dropWhile_pre]
      · rfl
      · intro b hb; exact (hS b).2 (hp b hb)
    rw [splitLoop, this]; simp [wordsOf]
  | tok hp ht htb hr htok ih =>
    rename_i p t r ts
    intro fuel acc hf
    obtain ⟨fuel, rfl⟩ : ∃ k, fuel = k + 1 := ⟨fuel - 1, by omega⟩
    obtain ⟨c, t', rfl⟩ : ∃ c t', t = c :: t' := List.exists_cons_of_ne_nil ht
    have e1 : (p ++ (c :: t') ++ r).dropWhile (fun b => isInList (charToLetter b) cs) = c :: (t' ++ r) := by
      rw [List.append_assoc, dropWhile_pre, dropWhile_stop]
      · rfl
      · intro x hx
        simp only [List.cons_append, List.head?_cons, Option.some.injEq] at hx
        subst hx
        rw [← Bool.not_eq_true, hS]; exact htb _ (by simp)
      · intro b hb; exact (hS b).2 (hp b hb)
    have hnb : ∀ x ∈ t', (!isInList (charToLetter x) cs) = true := by
      intro x hx
      rw [Bool.not_eq_true', ← Bool.not_eq_true, hS]; exact htb _ (by simp [hx])
    have hrb : ∀ x, r.head? = some x → (!isInList (charToLetter x) cs) = false := by
      intro x hx
      rw [Bool.not_eq_false', hS]; exact hr x hx
    rw [splitLoop, e1]
    simp only [takeWhile_pre hnb, dropWhile_pre hnb, takeWhile_stop hrb, dropWhile_stop hrb, List.append_nil]
    cases hw : Word.ofUtf8 (c :: t') with
    | error e => simp [wordsOf, hw]
    | ok w =>
      simp only [ok_bind, wordsOf, hw]
      by_cases hr0 : r.length = 0
      · rw [if_pos hr0]
        have : r = [] := List.eq_nil_of_length_eq_zero hr0
        subst this
        have : ts = [] := tokens_nil htok rfl
        subst this; simp [wordsOf]
      · rw [if_neg hr0, ih]
        · cases wordsOf ts <;> simp
        · simp only [List.length_append, List.length_cons] at hf; omega

theorem split_tokens [Build] [Icu] {S : Nat → Prop} {cs : List Letter} (hS : ∀ b, isInList (charToLetter b) cs = true ↔ S b)
    {s ts} (h : TokensBy S s ts) : split s cs = wordsOf ts := by
  rw [split, splitLoop_tokens hS h _ _ (by omega)]
  cases wordsOf ts <;> simp

theorem splitToWords_tokens [Build] [Icu] {s ts} (h : Tokens s ts) : splitToWords s = wordsOf ts :=
  split_tokens isInList_blank h

theorem dropWhile_head {α : Type} (p : α → Bool) (l : List α) : ∀ x, (l.dropWhile p).head? = some x → p x = false := by
  induction l with
  | nil => simp
  | cons a l ih =>
    intro x
    rw [List.dropWhile_cons]
    split
    · exact ih x
    · rename_i h
      simp only [List.head?_cons, Option.some.injEq]
      rintro rfl; simpa using h

theorem takeWhile_mem {α : Type} {p : α → Bool} {l : List α} : ∀ x ∈ l.takeWhile p, p x = true := by
  induction l with
  | nil => simp
  | cons a l ih =>
    intro x
    rw [List.takeWhile_cons]
    split
    · rename_i h
      simp only [List.mem_cons]
      rintro (rfl | hx)
      · exact h
      · exact ih x hx
    · simp

theorem tokensBy_exists (S : Nat → Prop) [DecidablePred S] (s : List Nat) : ∃ ts, TokensBy S s ts := by
  let B : Nat → Bool := fun b => decide (S b)
  let N : Nat → Bool := fun b => !decide (S b)
  have hsplit : s = s.takeWhile B ++ s.dropWhile B := (List.takeWhile_append_dropWhile (p := B) (l := s)).symm
  have hp : ∀ b ∈ s.takeWhile B, S b := fun b hb => by simpa [B] using takeWhile_mem b hb
  match hd : s.dropWhile B with
  | [] =>
    refine ⟨[], ?_⟩
    rw [hd, List.append_nil] at hsplit
    rw [hsplit]; exact .done hp
  | c :: r =>
    have hlen : (c :: r).length ≤ s.length := by
      rw [← hd]
      exact (List.dropWhile_sublist B).length_le
    have hlt : (r.dropWhile N).length < s.length := by
      have := (List.dropWhile_sublist N (l := r)).length_le
      simp only [List.length_cons] at hlen; omega
    obtain ⟨ts, hts⟩ := tokensBy_exists S (r.dropWhile N)
    refine ⟨(c :: r.takeWhile N) :: ts, ?_⟩
    have hc : ¬ S c := by
      have := dropWhile_head B s c (by rw [hd]; rfl)
      simpa [B] using this
    have e : s = s.takeWhile B ++ (c :: r.takeWhile N) ++ r.dropWhile N := by
      conv => lhs; rw [hsplit, hd]
      simp [List.takeWhile_append_dropWhile]
    rw [e]
    refine .tok hp (by simp) ?_ ?_ hts
    · intro b hb
      rcases List.mem_cons.1 hb with rfl | hb
      · exact hc
      · simpa [N] using takeWhile_mem b hb
    · intro b hb
      simpa [N] using dropWhile_head N r b hb
termination_by s.length

theorem tokens_exists (s : List Nat) : ∃ ts, Tokens s ts := tokensBy_exists IsBlank s

theorem utf8_append_ascii {s cps} (h : Utf8 s cps) : ∀ {a b}, s = a ++ b → (∀ x, b.head? = some x → x ≤ 0x7F) →
    WellFormed a ∧ WellFormed b := by
  induction h with
  | nil =>
    intro a b e _
    obtain ⟨rfl, rfl⟩ : a = [] ∧ b = [] := by simpa using e.symm
    exact ⟨⟨_, .nil⟩, ⟨_, .nil⟩⟩
  | one h1 h ih =>
    intro a b e hb
    match a with
    | [] => simp only [List.nil_append] at e; subst e; exact ⟨⟨_, .nil⟩, ⟨_, .one h1 h⟩⟩
    | x :: a =>
      simp only [List.cons_append, List.cons.injEq] at e
      obtain ⟨rfl, e⟩ := e
      obtain ⟨⟨c, hc⟩, h'⟩ := ih e hb
      exact ⟨⟨_, .one h1 hc⟩, h'⟩
  | two h1 h2 h3 h4 h ih =>
    intro a b e hb
    match a with
    | [] => simp only [List.nil_append] at e; subst e; exact ⟨⟨_, .nil⟩, ⟨_, .two h1 h2 h3 h4 h⟩⟩
    | [x] =>
      simp only [List.cons_append, List.cons.injEq, List.nil_append] at e
      obtain ⟨rfl, rfl⟩ := e
      have := hb _ rfl
      omega
    | x :: y :: a =>
      simp only [List.cons_append, List.cons.injEq] at e
      obtain ⟨rfl, rfl, e⟩ := e
      obtain ⟨⟨c, hc⟩, h'⟩ := ih e hb
      exact ⟨⟨_, .two h1 h2 h3 h4 hc⟩, h'⟩
  | three h1 h2 h3 h ih =>
    intro a b e hb
    match a with
    | [] => simp only [List.nil_append] at e; subst e; exact ⟨⟨_, .nil⟩, ⟨_, .three h1 h2 h3 h⟩⟩
    | [x] =>
      simp only [List.cons_append, List.cons.injEq, List.nil_append] at e
      obtain ⟨rfl, rfl⟩ := e
      have := hb _ rfl
      omega
    | [x, y] =>
      simp only [List.cons_append, List.cons.injEq, List.nil_append] at e
      obtain ⟨rfl, rfl, rfl⟩ := e
      have := hb _ rfl
      omega
    | x :: y :: z :: a =>
      simp only [List.cons_append, List.cons.injEq] at e
      obtain ⟨rfl, rfl, rfl, e⟩ := e
      obtain ⟨⟨c, hc⟩, h'⟩ := ih e hb
      exact ⟨⟨_, .three h1 h2 h3 hc⟩, h'⟩
  | four h1 h2 h3 h4 h5 h ih =>
    intro a b e hb
    match a with
    | [] => simp only [List.nil_append] at e; subst e; exact ⟨⟨_, .nil⟩, ⟨_, .four h1 h2 h3 h4 h5 h⟩⟩
    | [x] =>
      simp only [List.cons_append, List.cons.injEq, List.nil_append] at e
      obtain ⟨rfl, rfl⟩ := e
      have := hb _ rfl
      omega
    | [x, y] =>
      simp only [List.cons_append, List.cons.injEq, List.nil_append] at e
      obtain ⟨rfl, rfl, rfl⟩ := e
      have := hb _ rfl
      omega
    | [x, y, z] =>
      simp only [List.cons_append, List.cons.injEq, List.nil_append] at e
      obtain ⟨rfl, rfl, rfl, rfl⟩ := e
      have := hb _ rfl
      omega
    | x :: y :: z :: u :: a =>
      simp only [List.cons_append, List.cons.injEq] at e
      obtain ⟨rfl, rfl, rfl, rfl, e⟩ := e
      obtain ⟨⟨c, hc⟩, h'⟩ := ih e hb
      exact ⟨⟨_, .four h1 h2 h3 h4 h5 hc⟩, h'⟩

theorem wellFormed_append {a b} (ha : WellFormed a) (hb : WellFormed b) : WellFormed (a ++ b) := by
  obtain ⟨c, hc⟩ := ha
  obtain ⟨d, hd⟩ := hb
  exact ⟨_, Utf8.append hc hd⟩

theorem wellFormed_ascii {p : List Nat} (h : ∀ b ∈ p, b ≤ 0x7F) : WellFormed p := by
  induction p with
  | nil => exact ⟨_, .nil⟩
  | cons x p ih =>
    obtain ⟨c, hc⟩ := ih fun b hb => h b (by simp [hb])
    have := h x (by simp)
    exact ⟨_, .one (by omega) hc⟩

theorem wellFormed_tokensBy {S : Nat → Prop} (hS : ∀ b, S b → b ≤ 0x7F) {s ts} (h : TokensBy S s ts) :
    WellFormed s ↔ ∀ t ∈ ts, WellFormed t := by
  induction h with
  | done hp => simp [wellFormed_ascii fun b hb => hS b (hp b hb)]
  | tok hp ht htb hr _ ih =>
    rename_i p t r ts _
    simp only [List.mem_cons, forall_eq_or_imp, ← ih]
    constructor
    · rintro ⟨c, hc⟩
      obtain ⟨⟨d, hd⟩, h2⟩ := utf8_append_ascii hc rfl (fun x hx => hS x (hr x hx))
      refine ⟨?_, h2⟩
      -- drop the leading blanks
      have : ∀ (p : List Nat), (∀ b ∈ p, S b) → WellFormed (p ++ t) → WellFormed t := by
        intro p hp
        induction p with
        | nil => exact id
        | cons x p ihp =>
          rintro ⟨d, hd⟩
          have hx := hS x (hp x (by simp))
          rw [List.cons_append] at hd
          generalize p ++ t = q at hd ihp
          cases hd with
          | one _ h => exact ihp (fun b hb => hp b (by simp [hb])) ⟨_, h⟩
          | two => omega
          | three => omega
          | four => omega
      exact this p hp ⟨d, hd⟩
    · rintro ⟨h1, h2⟩
      exact wellFormed_append (wellFormed_append (wellFormed_ascii fun b hb => hS b (hp b hb)) h1) h2

theorem wellFormed_tokens {s ts} (h : Tokens s ts) : WellFormed s ↔ ∀ t ∈ ts, WellFormed t :=
  wellFormed_tokensBy (fun b hb => by have := IsBlank.lt hb; omega) h

theorem tokens_mem {S : Nat → Prop} {s ts} (h : TokensBy S s ts) : ∀ t ∈ ts, t ≠ [] ∧ ∀ b ∈ t, ¬ S b := by
  induction h with
  | done => simp
  | tok hp ht htb hr _ ih =>
    simp only [List.mem_cons, forall_eq_or_imp]
    exact ⟨⟨ht, htb⟩, ih⟩

theorem wordsOf_ok [Build] [Icu] {ts : List Bytes} {ws : List Word} :
    wordsOf ts = .ok ws ↔ List.Forall₂ (fun t w => Word.ofUtf8 t = .ok w) ts ws := by
  induction ts generalizing ws with
  | nil => simp [wordsOf, eq_comm]
  | cons t ts ih =>
    simp only [wordsOf, bind_eq_ok, ih, List.forall₂_cons_left_iff]
    constructor
    · rintro ⟨w, hw, ws', hws, h⟩
      cases h; exact ⟨w, ws', hw, hws, rfl⟩
    · rintro ⟨w, ws', hw, hws, rfl⟩
      exact ⟨w, hw, ws', hws, rfl⟩

theorem wordsOf_good [Build] [Icu] {ts : List Bytes} (h : ∀ t ∈ ts, WellFormed t ∧ ∀ b ∈ t, ¬ IsBlank b) :
    ∃ ws, wordsOf ts = .ok ws := by
  induction ts with
  | nil => exact ⟨_, rfl⟩
  | cons t ts ih =>
    obtain ⟨ws, hws⟩ := ih fun t ht => h t (by simp [ht])
    obtain ⟨⟨c, hc⟩, hb⟩ := h t (by simp)
    have : Word.ofUtf8 t = .ok (lettersOf c) := (ofUtf8_ok_iff _ _).2 ⟨hb, c, hc, rfl⟩
    exact ⟨lettersOf c :: ws, by simp only [wordsOf, this, hws, ok_bind]⟩

theorem wordsOf_bad [Build] [Icu] {ts : List Bytes} (h : ∀ t ∈ ts, ∀ b ∈ t, ¬ IsBlank b) (hb : ¬ ∀ t ∈ ts, WellFormed t) :
    wordsOf ts = .error .runtimeError := by
  induction ts with
  | nil => simp at hb
  | cons t ts ih =>
    by_cases ht : WellFormed t
    · have : ¬ ∀ t ∈ ts, WellFormed t := fun h => hb (by simpa [ht] using h)
      have e := ih (fun t ht => h t (by simp [ht])) this
      obtain ⟨c, hc⟩ := ht
      have : Word.ofUtf8 t = .ok (lettersOf c) := (ofUtf8_ok_iff _ _).2 ⟨h t (by simp), c, hc, rfl⟩
      simp only [wordsOf, this, e, ok_bind, error_bind]
    · simp only [wordsOf, ofUtf8_bad ht, error_bind]

theorem sepBy_iff {cs : List Letter} (hc : ∀ c ∈ cs, c.toNat < 0xFF80) {b : Nat} (hb : b < 256) :
    isInList (charToLetter b) cs = true ↔ SepBy cs b := by
  rw [isInList_iff]
  unfold charToLetter SepBy
  by_cases h : b < 0x80
  · rw [if_pos h]; simp only [h, true_and]
    constructor
    · intro hm; exact ⟨_, hm, by rw [BitVec.toNat_ofNat]; omega⟩
    · rintro ⟨c, hm, rfl⟩; simpa using hm
  · rw [if_neg h]; simp only [h, false_and, iff_false]
    intro hm
    have := hc _ hm
    rw [BitVec.toNat_ofNat] at this
    omega

theorem tokensBy_congr {S S' : Nat → Prop} {s : List Nat} {ts : List (List Nat)} (h : TokensBy S s ts) :
    (∀ b ∈ s, S b ↔ S' b) → TokensBy S' s ts := by
  induction h with
  | done hp => intro hs; exact .done fun b hb => (hs b hb).1 (hp b hb)
  | @tok p t r ts hp ht htb hr _ ih =>
    intro hs
    refine .tok (fun b hb => (hs b (by simp [hb])).1 (hp b hb)) ht (fun b hb hx => htb b hb ((hs b (by simp [hb])).2 hx)) ?_
      (ih fun b hb => hs b (by simp [hb]))
    intro b hb
    exact (hs b (by simp [List.mem_of_mem_head? hb])).1 (hr b hb)

theorem split_at [Build] [Icu] {s : Bytes} {cs : List Letter} {ts : List Bytes} (h : TokensBy (SepBy cs) s ts)
    (hs : ∀ b ∈ s, b < 256) (hc : ∀ c ∈ cs, c.toNat < 0xFF80) : split s cs = wordsOf ts :=
  split_tokens (S := fun b => isInList (charToLetter b) cs = true) (fun _ => Iff.rfl)
    (tokensBy_congr h fun b hb => (sepBy_iff hc (hs b hb)).symm)

theorem sepByte_iff {cs : List Letter} {b : Nat} (hb : b < 256) : isInList (charToLetter b) cs = true ↔ SepByte cs b := by
  rw [isInList_iff]
  unfold charToLetter SepByte
  by_cases h : b < 0x80
  · simp only [if_pos h]
    constructor
    · intro hm; exact ⟨_, hm, by rw [BitVec.toNat_ofNat]; omega⟩
    · rintro ⟨c, hm, rfl⟩; simpa using hm
  · simp only [if_neg h]
    constructor
    · intro hm; exact ⟨_, hm, by rw [BitVec.toNat_ofNat]; omega⟩
    · rintro ⟨c, hm, hc⟩
      have : c = BitVec.ofNat 16 (0xFF00 + b % 256) := by rw [Nat.mod_eq_of_lt hb, ← hc]; simp
      rw [this] at hm; exact hm

theorem split_bytes [Build] [Icu] {s : Bytes} {cs : List Letter} {ts : List Bytes} (h : TokensBy (SepByte cs) s ts)
    (hs : ∀ b ∈ s, b < 256) : split s cs = wordsOf ts :=
  split_tokens (S := fun b => isInList (charToLetter b) cs = true) (fun _ => Iff.rfl)
    (tokensBy_congr h fun b hb => (sepByte_iff (hs b hb)).symm)

/-- The first text that is no word decides the exception. -/
theorem wordsOf_error [Build] [Icu] {ts : List Bytes} {f : Fault} : wordsOf ts = .error f ↔
    ∃ good t rest, ts = good ++ t :: rest ∧ (∀ g ∈ good, ∃ w, Word.ofUtf8 g = .ok w) ∧ Word.ofUtf8 t = .error f := by
  induction ts with
  | nil => simp [wordsOf]
  | cons t ts ih =>
    rw [wordsOf]
    cases hw : Word.ofUtf8 t with
    | error f' =>
      constructor
      · intro h
        refine ⟨[], t, ts, rfl, by simp, ?_⟩
        rw [hw]; exact congrArg _ (Except.error.inj h)
      · rintro ⟨good, t', rest, h1, h2, h3⟩
        cases good with
        | nil =>
          simp only [List.nil_append, List.cons.injEq] at h1
          rw [← h1.1, hw] at h3
          rw [Except.error.inj h3]; rfl
        | cons g good =>
          simp only [List.cons_append, List.cons.injEq] at h1
          obtain ⟨w, hw'⟩ := h2 g (by simp)
          rw [← h1.1, hw] at hw'; cases hw'
    | ok w =>
      have : ((do let ws ← wordsOf ts; .ok (w :: ws) : M (List Word)) = .error f) ↔ wordsOf ts = .error f := by
        cases wordsOf ts <;> simp
      simp only [ok_bind]
      rw [this, ih]
      constructor
      · rintro ⟨good, t', rest, rfl, h2, h3⟩
        refine ⟨t :: good, t', rest, rfl, ?_, h3⟩
        simp only [List.mem_cons, forall_eq_or_imp]
        exact ⟨⟨w, hw⟩, h2⟩
      · rintro ⟨good, t', rest, h1, h2, h3⟩
        cases good with
        | nil =>
          simp only [List.nil_append, List.cons.injEq] at h1
          rw [← h1.1, hw] at h3; cases h3
        | cons g good =>
          simp only [List.cons_append, List.cons.injEq] at h1
          exact ⟨good, t', rest, h1.2, fun x hx => h2 x (by simp [hx]), h3⟩
end Columbus
