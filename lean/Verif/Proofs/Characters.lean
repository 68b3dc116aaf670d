import Verif.Spec.Characters
/-
Edits of letters and edits of characters. A character outside the Basic Multilingual Plane has two letters.
-/

namespace Columbus
open Spec

def PlainU (x : Letter) : Prop := x.toNat < 0xD800 ∨ 0xE000 ≤ x.toNat
def HighU (x : Letter) : Prop := 0xD800 ≤ x.toNat ∧ x.toNat < 0xDC00
def LowU (x : Letter) : Prop := 0xDC00 ≤ x.toNat ∧ x.toNat < 0xE000

@[irreducible] def pairCp (h l : Letter) : Nat := 0x10000 + (h.toNat - 0xD800) * 0x400 + (l.toNat - 0xDC00)

theorem le_pairCp (h l : Letter) : 0x10000 ≤ pairCp h l := by unfold pairCp; omega

/-- UTF-16 read from the end, possibly with half a character at the end. -/
inductive Half : List Letter → List Nat → Option Letter → Prop
  | nil : Half [] [] none
  | plain {u : List Letter} {p : List Nat} {x : Letter} : Half u p none → PlainU x → Half (u ++ [x]) (p ++ [x.toNat]) none
  | high {u : List Letter} {p : List Nat} {h : Letter} : Half u p none → HighU h → Half (u ++ [h]) p (some h)
  | low {u : List Letter} {p : List Nat} {h l : Letter} : Half u p (some h) → LowU l → Half (u ++ [l]) (p ++ [pairCp h l]) none

theorem Half.of_utf16 {u v : List Letter} {p q : List Nat} (hq : Utf16 v q) : Half u p none → Half (u ++ v) (p ++ q) none := by
  induction hq generalizing u p with
  | nil => intro h; simpa using h
  | bmp hb _ ih =>
    intro h
    have := ih (Half.plain h hb)
    simpa using this
  | @pair x y r cps h1 h2 h3 h4 _ ih =>
    intro h
    have := ih (Half.low (Half.high h ⟨h1, h2⟩) ⟨h3, h4⟩)
    generalize e : 0x10000 + (x.toNat - 0xD800) * 0x400 + (y.toNat - 0xDC00) = c
    have hc : pairCp x y = c := by unfold pairCp; exact e
    rw [hc] at this
    simpa using this

theorem half_of_utf16 {v : List Letter} {q : List Nat} (h : Utf16 v q) : Half v q none := by
  simpa using Half.of_utf16 h Half.nil

theorem snoc_inj {α : Type} {u v : List α} {x y : α} (h : u ++ [x] = v ++ [y]) : u = v ∧ x = y := by
  have := List.append_inj' h rfl
  exact ⟨this.1, by simpa using this.2⟩

theorem Half.high_of {u : List Letter} {p : List Nat} {h : Letter} (hh : Half u p (some h)) : HighU h := by
  cases hh; assumption

theorem Half.snoc_none {u : List Letter} {x : Letter} {p : List Nat} (h : Half (u ++ [x]) p none) :
    (PlainU x ∧ ∃ p', p = p' ++ [x.toNat] ∧ Half u p' none) ∨
    (LowU x ∧ ∃ p' h, p = p' ++ [pairCp h x] ∧ Half u p' (some h)) := by
  generalize hu : u ++ [x] = u' at h
  generalize ho : (none : Option Letter) = o at h
  cases h with
  | nil => simp at hu
  | plain h1 h2 =>
    obtain ⟨rfl, rfl⟩ := snoc_inj hu
    exact Or.inl ⟨h2, _, rfl, h1⟩
  | high => cases ho
  | low h1 h2 =>
    obtain ⟨rfl, rfl⟩ := snoc_inj hu
    exact Or.inr ⟨h2, _, _, rfl, h1⟩

theorem Half.snoc_some {u : List Letter} {x h : Letter} {p : List Nat} (hh : Half (u ++ [x]) p (some h)) :
    x = h ∧ HighU h ∧ Half u p none := by
  generalize hu : u ++ [x] = u' at hh
  generalize ho : some h = o at hh
  cases hh with
  | nil => simp at hu
  | plain => cases ho
  | high h1 h2 =>
    obtain ⟨rfl, rfl⟩ := snoc_inj hu
    cases ho
    exact ⟨rfl, h2, h1⟩
  | low => cases ho

/-- At most `n` edits of characters. -/
def Few (p q : List Nat) (n : Nat) : Prop := ∃ m, m ≤ n ∧ TextEdits p q m

theorem Few.mono {p q : List Nat} {n k : Nat} (h : Few p q n) (hk : n ≤ k) : Few p q k := by
  obtain ⟨m, h1, h2⟩ := h; exact ⟨m, by omega, h2⟩
theorem Few.delete {p q : List Nat} {n : Nat} (h : Few p q n) (a : Nat) : Few (p ++ [a]) q (n + 1) := by
  obtain ⟨m, h1, h2⟩ := h; exact ⟨m + 1, by omega, h2.delete a⟩
theorem Few.insert {p q : List Nat} {n : Nat} (h : Few p q n) (a : Nat) : Few p (q ++ [a]) (n + 1) := by
  obtain ⟨m, h1, h2⟩ := h; exact ⟨m + 1, by omega, h2.insert a⟩
theorem Few.keep {p q : List Nat} {n : Nat} (h : Few p q n) (a : Nat) : Few (p ++ [a]) (q ++ [a]) n := by
  obtain ⟨m, h1, h2⟩ := h; exact ⟨m, by omega, h2.keep a⟩
theorem Few.replace {p q : List Nat} {n : Nat} (h : Few p q n) (a b : Nat) : Few (p ++ [a]) (q ++ [b]) (n + 1) := by
  obtain ⟨m, h1, h2⟩ := h; exact ⟨m + 1, by omega, h2.replace a b⟩
theorem Few.swap {p q : List Nat} {n : Nat} (h : Few p q n) (a b : Nat) :
    Few (p ++ [a] ++ [b]) (q ++ [b] ++ [a]) (n + 1) := by
  obtain ⟨m, h1, h2⟩ := h
  refine ⟨m + 1, by omega, ?_⟩
  simpa using h2.swap a b

/-- What `n` edits of letters mean for the characters, when either text may end in half a character. -/
def Cover (p : List Nat) (o : Option Letter) (q : List Nat) (o' : Option Letter) (n : Nat) : Prop :=
  match o, o' with
  | none, none => Few p q n
  | some h, none => Few p q n ∧ ∀ l, Few (p ++ [pairCp h l]) q n
  | none, some h => Few p q n ∧ ∀ l, Few p (q ++ [pairCp h l]) n
  | some h, some h' => Few p q n ∧ (h = h' ∨ ∀ l l', Few (p ++ [pairCp h l]) (q ++ [pairCp h' l']) n)

theorem not_plain_low {x : Letter} (h1 : PlainU x) (h2 : LowU x) : False := by unfold PlainU LowU at *; omega
theorem not_plain_high {x : Letter} (h1 : PlainU x) (h2 : HighU x) : False := by unfold PlainU HighU at *; omega
theorem not_low_high {x : Letter} (h1 : LowU x) (h2 : HighU x) : False := by unfold LowU HighU at *; omega

theorem edits_cover {U V : List Letter} {n : Nat} (h : Edits U V n) :
    ∀ p o q o', Half U p o → Half V q o' → Cover p o q o' n := by
  induction h with
  | nil =>
    intro p o q o' h1 h2
    have hnil : ∀ {u : List Letter} {p o}, Half u p o → u = [] → p = [] ∧ o = none := by
      intro u p o hh hu
      cases hh <;> simp_all
    obtain ⟨rfl, rfl⟩ := hnil h1 rfl
    obtain ⟨rfl, rfl⟩ := hnil h2 rfl
    exact ⟨0, Nat.le_refl _, .nil⟩
  | delete a _ ih =>
    intro p o q o' h1 h2
    cases o with
    | none =>
      replace h1 := h1.snoc_none; rcases h1 with ⟨_, p', rfl, h1⟩ | ⟨_, p', h, rfl, h1⟩
      · have := ih _ _ _ _ h1 h2
        cases o' with
        | none => exact Few.delete this _
        | some h' => exact ⟨this.1.delete _, fun l => (this.2 l).delete _⟩
      · have := ih _ _ _ _ h1 h2
        cases o' with
        | none => exact (this.2 _).mono (by omega)
        | some h' => exact ⟨this.1.delete _, fun l => this.1.replace _ _⟩
    | some h =>
      replace h1 := h1.snoc_some; obtain ⟨rfl, _, h1⟩ := h1
      have := ih _ _ _ _ h1 h2
      cases o' with
      | none => exact ⟨Few.mono this (by omega), fun l => Few.delete this _⟩
      | some h' => exact ⟨this.1.mono (by omega), Or.inr fun l l' => (this.2 l').delete _⟩
  | insert a _ ih =>
    intro p o q o' h1 h2
    cases o' with
    | none =>
      replace h2 := h2.snoc_none; rcases h2 with ⟨_, p', rfl, h2⟩ | ⟨_, p', h, rfl, h2⟩
      · have := ih _ _ _ _ h1 h2
        cases o with
        | none => exact Few.insert this _
        | some h' => exact ⟨this.1.insert _, fun l => (this.2 l).insert _⟩
      · have := ih _ _ _ _ h1 h2
        cases o with
        | none => exact (this.2 _).mono (by omega)
        | some h' => exact ⟨this.1.insert _, fun l => this.1.replace _ _⟩
    | some h =>
      replace h2 := h2.snoc_some; obtain ⟨rfl, _, h2⟩ := h2
      have := ih _ _ _ _ h1 h2
      cases o with
      | none => exact ⟨Few.mono this (by omega), fun l => Few.insert this _⟩
      | some h' => exact ⟨this.1.mono (by omega), Or.inr fun l l' => (this.2 l).insert _⟩
  | keep a _ ih =>
    intro p o q o' h1 h2
    cases o with
    | none =>
      replace h1 := h1.snoc_none; rcases h1 with ⟨t1, p', rfl, h1⟩ | ⟨t1, p', h, rfl, h1⟩
      · cases o' with
        | none =>
          replace h2 := h2.snoc_none; rcases h2 with ⟨_, q', rfl, h2⟩ | ⟨t2, q', h', rfl, h2⟩
          · exact Few.keep (ih _ _ _ _ h1 h2) _
          · exact (not_plain_low t1 t2).elim
        | some h' =>
          replace h2 := h2.snoc_some; obtain ⟨rfl, t2, h2⟩ := h2
          exact (not_plain_high t1 t2).elim
      · cases o' with
        | none =>
          replace h2 := h2.snoc_none; rcases h2 with ⟨t2, q', rfl, h2⟩ | ⟨t2, q', h', rfl, h2⟩
          · exact (not_plain_low t2 t1).elim
          · have := ih _ _ _ _ h1 h2
            rcases this.2 with rfl | h3
            · exact this.1.keep _
            · exact h3 _ _
        | some h' =>
          replace h2 := h2.snoc_some; obtain ⟨rfl, t2, h2⟩ := h2
          exact (not_low_high t1 t2).elim
    | some h =>
      replace h1 := h1.snoc_some; obtain ⟨rfl, t1, h1⟩ := h1
      cases o' with
      | none =>
        replace h2 := h2.snoc_none; rcases h2 with ⟨t2, q', rfl, h2⟩ | ⟨t2, q', h', rfl, h2⟩
        · exact (not_plain_high t2 t1).elim
        · exact (not_low_high t2 t1).elim
      | some h' =>
        replace h2 := h2.snoc_some; obtain ⟨rfl, _, h2⟩ := h2
        exact ⟨ih _ _ _ _ h1 h2, Or.inl rfl⟩
  | replace a b _ ih =>
    intro p o q o' h1 h2
    cases o with
    | none =>
      replace h1 := h1.snoc_none; rcases h1 with ⟨t1, p', rfl, h1⟩ | ⟨t1, p', h, rfl, h1⟩
      · cases o' with
        | none =>
          replace h2 := h2.snoc_none; rcases h2 with ⟨_, q', rfl, h2⟩ | ⟨t2, q', h', rfl, h2⟩
          · exact Few.replace (ih _ _ _ _ h1 h2) _ _
          · exact (ih _ _ _ _ h1 h2).1.replace _ _
        | some h' =>
          replace h2 := h2.snoc_some; obtain ⟨rfl, t2, h2⟩ := h2
          have := ih _ _ _ _ h1 h2
          exact ⟨Few.delete this _, fun l => Few.replace this _ _⟩
      · cases o' with
        | none =>
          replace h2 := h2.snoc_none; rcases h2 with ⟨t2, q', rfl, h2⟩ | ⟨t2, q', h', rfl, h2⟩
          · exact (ih _ _ _ _ h1 h2).1.replace _ _
          · exact (ih _ _ _ _ h1 h2).1.replace _ _
        | some h' =>
          replace h2 := h2.snoc_some; obtain ⟨rfl, t2, h2⟩ := h2
          have := ih _ _ _ _ h1 h2
          exact ⟨(this.2 _).mono (by omega), fun l => this.1.replace _ _⟩
    | some h =>
      replace h1 := h1.snoc_some; obtain ⟨rfl, t1, h1⟩ := h1
      cases o' with
      | none =>
        replace h2 := h2.snoc_none; rcases h2 with ⟨t2, q', rfl, h2⟩ | ⟨t2, q', h', rfl, h2⟩
        · have := ih _ _ _ _ h1 h2
          exact ⟨Few.insert this _, fun l => Few.replace this _ _⟩
        · have := ih _ _ _ _ h1 h2
          exact ⟨(this.2 _).mono (by omega), fun l => this.1.replace _ _⟩
      | some h' =>
        replace h2 := h2.snoc_some; obtain ⟨rfl, _, h2⟩ := h2
        have := ih _ _ _ _ h1 h2
        exact ⟨Few.mono this (by omega), Or.inr fun l l' => Few.replace this _ _⟩
  | @swap U V n a b _ ih =>
    intro p o q o' h1 h2
    rw [show U ++ [a, b] = U ++ [a] ++ [b] by simp] at h1
    rw [show V ++ [b, a] = V ++ [b] ++ [a] by simp] at h2
    cases o with
    | none =>
      replace h1 := h1.snoc_none; rcases h1 with ⟨t1, p', rfl, h1⟩ | ⟨t1, p', h, rfl, h1⟩
      · replace h1 := h1.snoc_none; rcases h1 with ⟨s1, p', rfl, h1⟩ | ⟨s1, p', h, rfl, h1⟩
        · cases o' with
          | none =>
            replace h2 := h2.snoc_none; rcases h2 with ⟨_, q', rfl, h2⟩ | ⟨t2, q', h', rfl, h2⟩
            · replace h2 := h2.snoc_none; rcases h2 with ⟨_, q', rfl, h2⟩ | ⟨t2, q', h', rfl, h2⟩
              · exact Few.swap (ih _ _ _ _ h1 h2) _ _
              · exact (not_plain_low t1 t2).elim
            · exact (not_plain_low s1 t2).elim
          | some h' =>
            replace h2 := h2.snoc_some; obtain ⟨rfl, t2, h2⟩ := h2
            exact (not_plain_high s1 t2).elim
        · cases o' with
          | none =>
            replace h2 := h2.snoc_none; rcases h2 with ⟨t2, q', rfl, h2⟩ | ⟨t2, q', h', rfl, h2⟩
            · exact (not_plain_low t2 s1).elim
            · replace h2 := h2.snoc_some; obtain ⟨rfl, t3, h2⟩ := h2
              exact (not_plain_high t1 t3).elim
          | some h' =>
            replace h2 := h2.snoc_some; obtain ⟨rfl, t2, h2⟩ := h2
            exact (not_low_high s1 t2).elim
      · replace h1 := h1.snoc_some; obtain ⟨rfl, s1, h1⟩ := h1
        cases o' with
        | none =>
          replace h2 := h2.snoc_none; rcases h2 with ⟨t2, q', rfl, h2⟩ | ⟨t2, q', h', rfl, h2⟩
          · exact (not_plain_high t2 s1).elim
          · exact (not_low_high t2 s1).elim
        | some h' =>
          replace h2 := h2.snoc_some; obtain ⟨rfl, _, h2⟩ := h2
          replace h2 := h2.snoc_none; rcases h2 with ⟨t2, q', rfl, h2⟩ | ⟨t2, q', h', rfl, h2⟩
          · exact (not_plain_low t2 t1).elim
          · have := ih _ _ _ _ h1 h2
            exact ⟨(this.2 _).delete _, fun l => (this.2 _).replace _ _⟩
    | some h =>
      replace h1 := h1.snoc_some; obtain ⟨rfl, t1, h1⟩ := h1
      replace h1 := h1.snoc_none; rcases h1 with ⟨s1, p', rfl, h1⟩ | ⟨s1, p', h, rfl, h1⟩
      · cases o' with
        | none =>
          replace h2 := h2.snoc_none; rcases h2 with ⟨t2, q', rfl, h2⟩ | ⟨t2, q', h', rfl, h2⟩
          · replace h2 := h2.snoc_none; rcases h2 with ⟨t3, q', rfl, h2⟩ | ⟨t3, q', h', rfl, h2⟩
            · exact (not_plain_high t3 t1).elim
            · exact (not_low_high t3 t1).elim
          · exact (not_plain_low s1 t2).elim
        | some h' =>
          replace h2 := h2.snoc_some; obtain ⟨rfl, t2, h2⟩ := h2
          exact (not_plain_high s1 t2).elim
      · cases o' with
        | none =>
          replace h2 := h2.snoc_none; rcases h2 with ⟨t2, q', rfl, h2⟩ | ⟨t2, q', h', rfl, h2⟩
          · exact (not_plain_low t2 s1).elim
          · replace h2 := h2.snoc_some; obtain ⟨rfl, _, h2⟩ := h2
            have := ih _ _ _ _ h1 h2
            exact ⟨(this.2 _).insert _, fun l => (this.2 _).replace _ _⟩
        | some h' =>
          replace h2 := h2.snoc_some; obtain ⟨rfl, t2, h2⟩ := h2
          exact (not_low_high s1 t2).elim

/-- Letters are edited at least as often as characters. -/
theorem edits_characters {U V : List Letter} {p q : List Nat} {n : Nat} (hU : Utf16 U p) (hV : Utf16 V q) (h : Edits U V n) :
    ∃ m, m ≤ n ∧ TextEdits p q m :=
  edits_cover h _ _ _ _ (half_of_utf16 hU) (half_of_utf16 hV)

theorem half_some {u : List Letter} {p : List Nat} {h : Letter} (hh : Half u p (some h)) : ∃ u', u = u' ++ [h] ∧ Half u' p none := by
  cases hh with
  | high h1 h2 => exact ⟨_, rfl, h1⟩

/-- A text that ends in a character ends in its one or two letters. -/
theorem Half.last {u : List Letter} {p : List Nat} {c : Nat} (h : Half u (p ++ [c]) none) :
    (∃ u' x, u = u' ++ [x] ∧ x.toNat = c ∧ c < 0x10000 ∧ Half u' p none) ∨
    (∃ u' h l, u = u' ++ [h] ++ [l] ∧ 0x10000 ≤ c ∧ pairCp h l = c ∧ Half u' p none) := by
  generalize hp : p ++ [c] = p' at h
  generalize ho : (none : Option Letter) = o at h
  cases h with
  | nil => simp at hp
  | plain h1 h2 =>
    obtain ⟨rfl, rfl⟩ := snoc_inj hp
    exact Or.inl ⟨_, _, rfl, rfl, BitVec.isLt _, h1⟩
  | high => cases ho
  | low h1 h2 =>
    obtain ⟨rfl, e⟩ := snoc_inj hp
    obtain ⟨u', rfl, h3⟩ := half_some h1
    exact Or.inr ⟨u', _, _, rfl, e.symm ▸ le_pairCp _ _, e.symm, h3⟩

theorem Half.nil_of {u : List Letter} (h : Half u [] none) : u = [] := by
  generalize hp : ([] : List Nat) = p' at h
  generalize ho : (none : Option Letter) = o at h
  cases h with
  | nil => rfl
  | plain => simp at hp
  | high => cases ho
  | low => simp at hp

theorem pairCp_inj {h l h' l' : Letter} (h1 : HighU h) (h2 : LowU l) (h3 : HighU h') (h4 : LowU l')
    (e : pairCp h l = pairCp h' l') : h = h' ∧ l = l' := by
  unfold pairCp HighU LowU at *
  constructor <;> apply BitVec.eq_of_toNat_eq <;> omega

/-- The letters of a character. -/
def units (c : Nat) : List Letter :=
  if c < 0x10000 then [BitVec.ofNat 16 c]
  else [BitVec.ofNat 16 (0xD800 + (c - 0x10000) / 0x400), BitVec.ofNat 16 (0xDC00 + (c - 0x10000) % 0x400)]

theorem units_length (c : Nat) : ((units c).length = 1 ∨ (units c).length = 2) ∧ (c < 0x10000 → (units c).length = 1) := by
  unfold units
  split
  · simp
  · next h => exact ⟨Or.inr rfl, fun hc => absurd hc h⟩

theorem units_pair {h l : Letter} (h1 : HighU h) (h2 : LowU l) : units (pairCp h l) = [h, l] := by
  have hge := le_pairCp h l
  unfold units
  rw [if_neg (by omega)]
  have e : pairCp h l - 0x10000 = (h.toNat - 0xD800) * 0x400 + (l.toNat - 0xDC00) := by unfold pairCp; omega
  unfold HighU at h1
  unfold LowU at h2
  have e1 : BitVec.ofNat 16 (0xD800 + (pairCp h l - 0x10000) / 0x400) = h := by
    apply BitVec.eq_of_toNat_eq
    rw [BitVec.toNat_ofNat, e]
    omega
  have e2 : BitVec.ofNat 16 (0xDC00 + (pairCp h l - 0x10000) % 0x400) = l := by
    apply BitVec.eq_of_toNat_eq
    rw [BitVec.toNat_ofNat, e]
    omega
  rw [e1, e2]

/-- A text that ends in a character ends in its letters. -/
theorem Half.units {u : List Letter} {p : List Nat} {c : Nat} (h : Half u (p ++ [c]) none) :
    ∃ u', u = u' ++ units c ∧ Half u' p none := by
  generalize hp : p ++ [c] = p' at h
  generalize ho : (none : Option Letter) = o at h
  cases h with
  | nil => simp at hp
  | @plain _ _ x h1 h2 =>
    obtain ⟨rfl, e⟩ := snoc_inj hp
    refine ⟨_, ?_, h1⟩
    rw [e, Columbus.units, if_pos (BitVec.isLt _)]
    simp
  | high => cases ho
  | low h1 h2 =>
    obtain ⟨rfl, e⟩ := snoc_inj hp
    have ht := h1.high_of
    obtain ⟨u', rfl, h3⟩ := half_some h1
    refine ⟨u', ?_, h3⟩
    rw [e, units_pair ht h2]
    simp

/-- A swap of characters in letters. -/
theorem edits_swap {U V : List Letter} {x y : List Letter} {n : Nat} (h : Edits U V n)
    (hx : x.length = 1 ∨ x.length = 2) (hy : y.length = 1 ∨ y.length = 2) :
    ∃ k, k ≤ n + 4 ∧ (x.length = 1 → y.length = 1 → k ≤ n + 1) ∧ Edits (U ++ x ++ y) (V ++ y ++ x) k := by
  match x, y with
  | [a], [b] => exact ⟨n + 1, by omega, fun _ _ => Nat.le_refl _, by simpa using h.swap a b⟩
  | [a], [b, c] =>
    refine ⟨n + 1 + 1, by omega, by simp, ?_⟩
    have := (((h.delete a).keep b).keep c).insert a
    simpa using this
  | [a, b], [c] =>
    refine ⟨n + 1 + 1, by omega, by simp, ?_⟩
    have := (((h.insert c).keep a).keep b).delete c
    simpa using this
  | [a, b], [c, d] =>
    refine ⟨n + 1 + 1 + 1 + 1, by omega, by simp, ?_⟩
    have := (((h.replace a c).replace b d).replace c a).replace d b
    simpa using this
  | [], _ => simp at hx
  | _ :: _ :: _ :: _, _ => simp at hx
  | [_], [] => simp at hy
  | [_], _ :: _ :: _ :: _ => simp at hy
  | [_, _], [] => simp at hy
  | [_, _], _ :: _ :: _ :: _ => simp at hy

/-- An edit of characters is at most four of letters, and one if all characters are in the Basic Multilingual Plane. -/
theorem characters_edits {p q : List Nat} {m : Nat} (h : TextEdits p q m) :
    ∀ {U V : List Letter}, Half U p none → Half V q none →
      ∃ n, n ≤ 4 * m ∧ ((∀ c ∈ p, c < 0x10000) → (∀ c ∈ q, c < 0x10000) → n ≤ m) ∧ Edits U V n := by
  induction h with
  | nil =>
    intro U V h1 h2
    rw [h1.nil_of, h2.nil_of]
    exact ⟨0, by omega, fun _ _ => Nat.le_refl _, .nil⟩
  | delete a _ ih =>
    intro U V h1 h2
    replace h1 := h1.last; rcases h1 with ⟨u, x, rfl, hx, hlt, h1⟩ | ⟨u, x, y, rfl, hge, _, h1⟩
    · obtain ⟨n, e1, e2, e3⟩ := ih h1 h2
      exact ⟨n + 1, by omega, fun hp hq => by have := e2 (fun c hc => hp c (by simp [hc])) hq; omega, e3.delete x⟩
    · obtain ⟨n, e1, e2, e3⟩ := ih h1 h2
      exact ⟨n + 1 + 1, by omega, fun hp _ => by have := hp a (by simp); omega, (e3.delete x).delete y⟩
  | insert b _ ih =>
    intro U V h1 h2
    replace h2 := h2.last; rcases h2 with ⟨u, x, rfl, hx, hlt, h2⟩ | ⟨u, x, y, rfl, hge, _, h2⟩
    · obtain ⟨n, e1, e2, e3⟩ := ih h1 h2
      exact ⟨n + 1, by omega, fun hp hq => by have := e2 hp (fun c hc => hq c (by simp [hc])); omega, e3.insert x⟩
    · obtain ⟨n, e1, e2, e3⟩ := ih h1 h2
      exact ⟨n + 1 + 1, by omega, fun _ hq => by have := hq b (by simp); omega, (e3.insert x).insert y⟩
  | keep a _ ih =>
    intro U V h1 h2
    rcases h1.last with ⟨u, x, rfl, hx, hlt, h1'⟩ | ⟨u, x, y, rfl, hge, hc, h1'⟩
    · rcases h2.last with ⟨v, x', rfl, hx', _, h2'⟩ | ⟨v, x', y', rfl, hge, _, _⟩
      · obtain ⟨n, e1, e2, e3⟩ := ih h1' h2'
        have : x = x' := BitVec.eq_of_toNat_eq (by omega)
        subst this
        exact ⟨n, e1, fun hp hq => e2 (fun c hc => hp c (by simp [hc])) (fun c hc => hq c (by simp [hc])), e3.keep x⟩
      · omega
    · rcases h2.last with ⟨v, x', rfl, hx', _, h2'⟩ | ⟨v, x', y', rfl, _, hc', h2'⟩
      · omega
      · obtain ⟨n, e1, e2, e3⟩ := ih h1' h2'
        have hhl : ∀ {w : List Letter} {h l : Letter} {p : List Nat}, Half w p none →
            Half (w ++ [h] ++ [l]) (p ++ [a]) none → 0x10000 ≤ a → HighU h ∧ LowU l := by
          intro w h l p h3 h4 h5
          rcases h4.snoc_none with ⟨t, p', e, _⟩ | ⟨t, p', h', e, h6⟩
          · obtain ⟨_, e⟩ := snoc_inj e
            have := l.isLt
            omega
          · obtain ⟨rfl, t', _⟩ := h6.snoc_some
            exact ⟨t', t⟩
        obtain ⟨t1, t2⟩ := hhl h1' h1 hge
        obtain ⟨t3, t4⟩ := hhl h2' h2 hge
        obtain ⟨rfl, rfl⟩ := pairCp_inj t1 t2 t3 t4 (hc.trans hc'.symm)
        exact ⟨n, e1, fun hp _ => by have := hp a (by simp); omega, (e3.keep x).keep y⟩
  | replace a b _ ih =>
    intro U V h1 h2
    replace h1 := h1.last; rcases h1 with ⟨u, x, rfl, hx, hlt, h1⟩ | ⟨u, x, y, rfl, hge, _, h1⟩
    · replace h2 := h2.last; rcases h2 with ⟨v, x', rfl, hx', _, h2⟩ | ⟨v, x', y', rfl, hge, _, h2⟩
      · obtain ⟨n, e1, e2, e3⟩ := ih h1 h2
        exact ⟨n + 1, by omega, fun hp hq => by
          have := e2 (fun c hc => hp c (by simp [hc])) (fun c hc => hq c (by simp [hc])); omega, e3.replace x x'⟩
      · obtain ⟨n, e1, e2, e3⟩ := ih h1 h2
        exact ⟨n + 1 + 1, by omega, fun _ hq => by have := hq b (by simp); omega, (e3.replace x x').insert y'⟩
    · replace h2 := h2.last; rcases h2 with ⟨v, x', rfl, hx', _, h2⟩ | ⟨v, x', y', rfl, _, _, h2⟩
      · obtain ⟨n, e1, e2, e3⟩ := ih h1 h2
        exact ⟨n + 1 + 1, by omega, fun hp _ => by have := hp a (by simp); omega, (e3.replace x x').delete y⟩
      · obtain ⟨n, e1, e2, e3⟩ := ih h1 h2
        exact ⟨n + 1 + 1, by omega, fun hp _ => by have := hp a (by simp); omega, (e3.replace x x').replace y y'⟩
  | @swap p q m a b _ ih =>
    intro U V h1 h2
    rw [show p ++ [a, b] = p ++ [a] ++ [b] by simp] at h1
    rw [show q ++ [b, a] = q ++ [b] ++ [a] by simp] at h2
    replace h1 := h1.units
    obtain ⟨U1, rfl, h1⟩ := h1
    replace h1 := h1.units
    obtain ⟨U2, rfl, h1⟩ := h1
    replace h2 := h2.units
    obtain ⟨V1, rfl, h2⟩ := h2
    replace h2 := h2.units
    obtain ⟨V2, rfl, h2⟩ := h2
    obtain ⟨n, e1, e2, e3⟩ := ih h1 h2
    obtain ⟨k, f1, f2, f3⟩ := edits_swap e3 (units_length a).1 (units_length b).1
    refine ⟨k, by omega, fun hp hq => ?_, f3⟩
    have := e2 (fun c hc => hp c (by simp [hc])) (fun c hc => hq c (by simp [hc]))
    have := f2 ((units_length a).2 (hp a (by simp))) ((units_length b).2 (hp b (by simp)))
    omega

end Columbus
