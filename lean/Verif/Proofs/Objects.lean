import Verif.Spec.Objects
import Verif.Proofs.Word
/-
Words with pointers behave like words as values.
-/

namespace Columbus
open Spec

/-! ### Memory and variables -/

section
variable {V α : Type}

theorem Vars.set_self (v : Vars α) (x : Nat) (o : Option α) : v.set x o x = o := by simp [Vars.set]

theorem Vars.set_other (v : Vars α) {x y : Nat} (o : Option α) (h : y ≠ x) : v.set x o y = v y := by simp [Vars.set, h]

theorem Vars.set_eq (v : Vars α) (x : Nat) (o : Option α) (h : v x = o) : v.set x o = v := by
  funext y
  by_cases hy : y = x
  · subst hy; rw [Vars.set_self, h]
  · rw [Vars.set_other _ _ hy]

theorem Memory.load_of {m : Memory V} {a : Nat} {v : V} (h : m.cells[a]? = some (some v)) : m.load (some a) = .ok v := by
  simp [Memory.load, h]

theorem Memory.free_of {m : Memory V} {a : Nat} {v : V} (h : m.cells[a]? = some (some v)) :
    m.free (some a) = .ok { m with cells := m.cells.set a none } := by
  simp [Memory.free, h]

theorem Memory.store_of {m : Memory V} {a : Nat} {v : V} (h : m.cells[a]? = some (some v)) (w : V) :
    m.store (some a) w = .ok { m with cells := m.cells.set a (some w) } := by
  simp [Memory.store, h]

theorem cells_lt {l : List (Option V)} {a : Nat} {v : Option V} (h : l[a]? = some v) : a < l.length := by
  rw [List.getElem?_eq_some_iff] at h; exact h.1

theorem cells_set {l : List (Option V)} {a b : Nat} {v w : Option V} (h : l[b]? = some w) (hne : b ≠ a) :
    (l.set a v)[b]? = some w := by
  rw [List.getElem?_set_ne (Ne.symm hne)]; exact h

theorem live_set_none {l : List (Option V)} {a b : Nat} {v : V} :
    (l.set a none)[b]? = some (some v) ↔ b ≠ a ∧ l[b]? = some (some v) := by
  rw [List.getElem?_set]
  split
  · rename_i h
    subst h
    split
    · simp
    · rename_i h
      constructor
      · intro x; cases x
      · rintro ⟨x, _⟩; exact absurd rfl x
  · rename_i h
    constructor
    · intro x; exact ⟨Ne.symm h, x⟩
    · rintro ⟨_, x⟩; exact x

theorem live_append {l : List (Option V)} {b : Nat} {u v : V} :
    (l ++ [some u])[b]? = some (some v) ↔ l[b]? = some (some v) ∨ (b = l.length ∧ u = v) := by
  rw [List.getElem?_append]
  split
  · rename_i h
    constructor
    · exact Or.inl
    · rintro (x | ⟨x, _⟩)
      · exact x
      · omega
  · rename_i h
    rw [List.getElem?_singleton]
    constructor
    · intro x
      split at x
      · injection x with x; injection x with x
        right; exact ⟨by omega, x⟩
      · cases x
    · rintro (x | ⟨x, y⟩)
      · exact absurd (cells_lt x) h
      · simp [x, y]

end

/-! ### Words -/

/-- The object stands for the word. -/
def Stands (m : Memory (List Letter)) (o : WordCell) (w : List Letter) : Prop :=
  o.len = w.length ∧ match o.text with
    | none => w = []
    | some a => m.cells[a]? = some (some (w ++ [0#16]))

/-- The memory agrees with the values; `L` are the arrays that were lost. -/
structure WordsRep (m : Memory (List Letter)) (b : Vars WordCell) (σ : WordValues) (L : List Nat) : Prop where
  dead : ∀ x, σ x = none → b x = none
  alive : ∀ x w, σ x = some w → ∃ o, b x = some o ∧ Stands m o w
  apart : ∀ x y o o' a, b x = some o → b y = some o' → o.text = some a → o'.text = some a → x = y
  lost : ∀ a ∈ L, m.Live a
  nodup : L.Nodup
  free : ∀ x o a, b x = some o → o.text = some a → a ∉ L
  owned : ∀ a, m.Live a → a ∈ L ∨ ∃ x o, b x = some o ∧ o.text = some a

theorem Stands.nil (m : Memory (List Letter)) : Stands m ⟨none, 0⟩ [] := ⟨rfl, rfl⟩

theorem Stands.live {m : Memory (List Letter)} {o : WordCell} {w : List Letter} (h : Stands m o w) {a : Nat} (ha : o.text = some a) :
    m.cells[a]? = some (some (w ++ [0#16])) := by
  have := h.2; rw [ha] at this; exact this

theorem Stands.letters {s : Words} {o : WordCell} {w : List Letter} (h : Stands s.mem o w) : s.letters o = .ok w := by
  obtain ⟨h1, h2⟩ := h
  unfold Words.letters
  cases ht : o.text with
  | none => rw [ht] at h2; simp only at h2; subst h2; rw [List.length_nil] at h1; rw [if_pos h1]
  | some a =>
    rw [ht] at h2
    simp only at h2
    split
    · rename_i h0
      rw [h1] at h0
      rw [List.eq_nil_of_length_eq_zero h0]
    · rw [Memory.load_of h2]
      simp [h1]

/-- Emptying a variable, after freeing what its object held. -/
theorem WordsRep.drop {m : Memory (List Letter)} {b : Vars WordCell} {σ : WordValues} {L : List Nat} (h : WordsRep m b σ L) {x : Nat} {w : List Letter} {o : WordCell}
    (hx : σ x = some w) (ho : b x = some o) :
    ∃ m', m.free o.text = .ok m' ∧ m'.asked = m.asked ∧ WordsRep m' (b.set x none) (σ.set x none) L := by
  obtain ⟨o', ho', hst⟩ := h.alive x w hx
  rw [ho] at ho'; injection ho' with ho'; subst ho'
  cases ht : o.text with
  | none =>
    refine ⟨m, rfl, rfl, ?_, ?_, ?_, h.lost, h.nodup, ?_, ?_⟩
    · intro y hy
      by_cases e : y = x
      · subst e; exact Vars.set_self _ _ _
      · rw [Vars.set_other _ _ e] at hy ⊢; exact h.dead y hy
    · intro y v hy
      by_cases e : y = x
      · subst e; rw [Vars.set_self] at hy; cases hy
      · rw [Vars.set_other _ _ e] at hy
        obtain ⟨o1, h1, h2⟩ := h.alive y v hy
        exact ⟨o1, by rw [Vars.set_other _ _ e]; exact h1, h2⟩
    · intro y z o1 o2 a h1 h2 h3 h4
      by_cases e : y = x
      · subst e; rw [Vars.set_self] at h1; cases h1
      by_cases e' : z = x
      · subst e'; rw [Vars.set_self] at h2; cases h2
      rw [Vars.set_other _ _ e] at h1
      rw [Vars.set_other _ _ e'] at h2
      exact h.apart y z o1 o2 a h1 h2 h3 h4
    · intro y o1 a h1 h2
      by_cases e : y = x
      · subst e; rw [Vars.set_self] at h1; cases h1
      · rw [Vars.set_other _ _ e] at h1; exact h.free y o1 a h1 h2
    · intro a ha
      rcases h.owned a ha with hl | ⟨y, o1, h1, h2⟩
      · exact Or.inl hl
      · right
        have e : y ≠ x := by rintro rfl; rw [ho] at h1; injection h1 with h1; subst h1; rw [ht] at h2; cases h2
        exact ⟨y, o1, by rw [Vars.set_other _ _ e]; exact h1, h2⟩
  | some c =>
    have hb := hst.live ht
    have hbL : c ∉ L := h.free x o c ho ht
    refine ⟨_, Memory.free_of hb, rfl, ?_, ?_, ?_, ?_, h.nodup, ?_, ?_⟩
    · intro y hy
      by_cases e : y = x
      · subst e; exact Vars.set_self _ _ _
      · rw [Vars.set_other _ _ e] at hy ⊢; exact h.dead y hy
    · intro y v hy
      by_cases e : y = x
      · subst e; rw [Vars.set_self] at hy; cases hy
      · rw [Vars.set_other _ _ e] at hy
        obtain ⟨o1, h1, h2⟩ := h.alive y v hy
        refine ⟨o1, by rw [Vars.set_other _ _ e]; exact h1, h2.1, ?_⟩
        cases ht1 : o1.text with
        | none => have := h2.2; rw [ht1] at this; exact this
        | some a =>
          have := h2.live ht1
          refine cells_set this ?_
          rintro rfl
          exact e (h.apart y x o1 o _ h1 ho ht1 ht)
    · intro y z o1 o2 a h1 h2 h3 h4
      by_cases e : y = x
      · subst e; rw [Vars.set_self] at h1; cases h1
      by_cases e' : z = x
      · subst e'; rw [Vars.set_self] at h2; cases h2
      rw [Vars.set_other _ _ e] at h1
      rw [Vars.set_other _ _ e'] at h2
      exact h.apart y z o1 o2 a h1 h2 h3 h4
    · intro a ha
      obtain ⟨v, hv⟩ := h.lost a ha
      exact ⟨v, live_set_none.2 ⟨by rintro rfl; exact hbL ha, hv⟩⟩
    · intro y o1 a h1 h2
      by_cases e : y = x
      · subst e; rw [Vars.set_self] at h1; cases h1
      · rw [Vars.set_other _ _ e] at h1; exact h.free y o1 a h1 h2
    · rintro a ⟨v, hv⟩
      obtain ⟨hne, hv⟩ := live_set_none.1 hv
      rcases h.owned a ⟨v, hv⟩ with hl | ⟨y, o1, h1, h2⟩
      · exact Or.inl hl
      · right
        have e : y ≠ x := by
          rintro rfl; rw [ho] at h1; injection h1 with h1; subst h1; rw [ht] at h2; injection h2 with h2
          exact hne h2.symm
        exact ⟨y, o1, by rw [Vars.set_other _ _ e]; exact h1, h2⟩

/-- An object without text in an unused variable. -/
theorem WordsRep.empty {m : Memory (List Letter)} {b : Vars WordCell} {σ : WordValues} {L : List Nat} (h : WordsRep m b σ L) {x : Nat} (hx : σ x = none) :
    WordsRep m (b.set x (some ⟨none, 0⟩)) (σ.set x (some [])) L := by
  have hd := h.dead x hx
  refine ⟨?_, ?_, ?_, h.lost, h.nodup, ?_, ?_⟩
  · intro y hy
    by_cases e : y = x
    · subst e; rw [Vars.set_self] at hy; cases hy
    · rw [Vars.set_other _ _ e] at hy ⊢; exact h.dead y hy
  · intro y v hy
    by_cases e : y = x
    · subst e; rw [Vars.set_self] at hy; injection hy with hy; subst hy
      exact ⟨_, Vars.set_self _ _ _, Stands.nil _⟩
    · rw [Vars.set_other _ _ e] at hy
      obtain ⟨o1, h1, h2⟩ := h.alive y v hy
      exact ⟨o1, by rw [Vars.set_other _ _ e]; exact h1, h2⟩
  · intro y z o1 o2 a h1 h2 h3 h4
    by_cases e : y = x
    · subst e; rw [Vars.set_self] at h1; injection h1 with h1; subst h1; cases h3
    by_cases e' : z = x
    · subst e'; rw [Vars.set_self] at h2; injection h2 with h2; subst h2; cases h4
    rw [Vars.set_other _ _ e] at h1
    rw [Vars.set_other _ _ e'] at h2
    exact h.apart y z o1 o2 a h1 h2 h3 h4
  · intro y o1 a h1 h2
    by_cases e : y = x
    · subst e; rw [Vars.set_self] at h1; injection h1 with h1; subst h1; cases h2
    · rw [Vars.set_other _ _ e] at h1; exact h.free y o1 a h1 h2
  · intro a ha
    rcases h.owned a ha with hl | ⟨y, o1, h1, h2⟩
    · exact Or.inl hl
    · right
      have e : y ≠ x := by rintro rfl; rw [hd] at h1; cases h1
      exact ⟨y, o1, by rw [Vars.set_other _ _ e]; exact h1, h2⟩

/-- A new array for an object in an unused variable. -/
theorem WordsRep.fill {m : Memory (List Letter)} {b : Vars WordCell} {σ : WordValues} {L : List Nat} (h : WordsRep m b σ L) {x : Nat} (hx : σ x = none)
    (w : List Letter) (n : Nat) :
    WordsRep ⟨m.cells ++ [some (w ++ [0#16])], n⟩ (b.set x (some ⟨some m.cells.length, w.length⟩))
      (σ.set x (some w)) L := by
  have hd := h.dead x hx
  have hfresh : ∀ y o1, b y = some o1 → o1.text ≠ some m.cells.length := by
    intro y o1 h1 h2
    cases hy : σ y with
    | none => rw [h.dead y hy] at h1; cases h1
    | some v =>
      obtain ⟨o2, h3, h4⟩ := h.alive y v hy
      rw [h1] at h3; injection h3 with h3; subst h3
      exact absurd (cells_lt (h4.live h2)) (by omega)
  refine ⟨?_, ?_, ?_, ?_, h.nodup, ?_, ?_⟩
  · intro y hy
    by_cases e : y = x
    · subst e; rw [Vars.set_self] at hy; cases hy
    · rw [Vars.set_other _ _ e] at hy ⊢; exact h.dead y hy
  · intro y v hy
    by_cases e : y = x
    · subst e; rw [Vars.set_self] at hy; injection hy with hy; subst hy
      exact ⟨_, Vars.set_self _ _ _, rfl, by simp⟩
    · rw [Vars.set_other _ _ e] at hy
      obtain ⟨o1, h1, h2, h3⟩ := h.alive y v hy
      refine ⟨o1, by rw [Vars.set_other _ _ e]; exact h1, h2, ?_⟩
      cases ht : o1.text with
      | none => rw [ht] at h3; exact h3
      | some a => rw [ht] at h3; exact live_append.2 (Or.inl h3)
  · intro y z o1 o2 a h1 h2 h3 h4
    by_cases e : y = x
    · subst e
      by_cases e' : z = y
      · exact e'.symm
      · rw [Vars.set_self] at h1; injection h1 with h1; subst h1
        rw [Vars.set_other _ _ e'] at h2
        injection h3 with h3; subst h3
        exact absurd h4 (hfresh z o2 h2)
    · rw [Vars.set_other _ _ e] at h1
      by_cases e' : z = x
      · subst e'
        rw [Vars.set_self] at h2; injection h2 with h2; subst h2
        injection h4 with h4; subst h4
        exact absurd h3 (hfresh y o1 h1)
      · rw [Vars.set_other _ _ e'] at h2
        exact h.apart y z o1 o2 a h1 h2 h3 h4
  · intro a ha
    obtain ⟨v, hv⟩ := h.lost a ha
    exact ⟨v, live_append.2 (Or.inl hv)⟩
  · intro y o1 a h1 h2 hc
    by_cases e : y = x
    · subst e; rw [Vars.set_self] at h1; injection h1 with h1; subst h1
      injection h2 with h2; subst h2
      obtain ⟨v, hv⟩ := h.lost _ hc
      exact absurd (cells_lt hv) (by omega)
    · rw [Vars.set_other _ _ e] at h1; exact h.free y o1 a h1 h2 hc
  · rintro a ⟨v, hv⟩
    rcases live_append.1 hv with hv | ⟨rfl, _⟩
    · rcases h.owned a ⟨v, hv⟩ with hl | ⟨y, o1, h1, h2⟩
      · exact Or.inl hl
      · right
        have e : y ≠ x := by rintro rfl; rw [hd] at h1; cases h1
        exact ⟨y, o1, by rw [Vars.set_other _ _ e]; exact h1, h2⟩
    · right; exact ⟨x, _, Vars.set_self _ _ _, rfl⟩

/-- An array that nobody will free. -/
theorem WordsRep.leak {m : Memory (List Letter)} {b : Vars WordCell} {σ : WordValues} {L : List Nat} (h : WordsRep m b σ L) (arr : List Letter) (n : Nat) :
    WordsRep ⟨m.cells ++ [some arr], n⟩ b σ (m.cells.length :: L) := by
  refine ⟨h.dead, ?_, h.apart, ?_, ?_, ?_, ?_⟩
  · intro y v hy
    obtain ⟨o1, h1, h2, h3⟩ := h.alive y v hy
    refine ⟨o1, h1, h2, ?_⟩
    cases ht : o1.text with
    | none => rw [ht] at h3; exact h3
    | some a => rw [ht] at h3; exact live_append.2 (Or.inl h3)
  · intro a ha
    rcases List.mem_cons.1 ha with rfl | ha
    · exact ⟨arr, live_append.2 (Or.inr ⟨rfl, rfl⟩)⟩
    · obtain ⟨v, hv⟩ := h.lost a ha
      exact ⟨v, live_append.2 (Or.inl hv)⟩
  · refine List.nodup_cons.2 ⟨?_, h.nodup⟩
    intro hc
    obtain ⟨v, hv⟩ := h.lost _ hc
    exact absurd (cells_lt hv) (by omega)
  · intro y o1 a h1 h2 hc
    rcases List.mem_cons.1 hc with rfl | hc
    · cases hy : σ y with
      | none => rw [h.dead y hy] at h1; cases h1
      | some v =>
        obtain ⟨o2, h3, h4⟩ := h.alive y v hy
        rw [h1] at h3; injection h3 with h3; subst h3
        exact absurd (cells_lt (h4.live h2)) (by omega)
    · exact h.free y o1 a h1 h2 hc
  · rintro a ⟨v, hv⟩
    rcases live_append.1 hv with hv | ⟨rfl, _⟩
    · rcases h.owned a ⟨v, hv⟩ with hl | hr
      · left; simp [hl]
      · right; exact hr
    · left; simp

/-- The number of requests does not matter. -/
theorem WordsRep.asked {m : Memory (List Letter)} {b : Vars WordCell} {σ : WordValues} {L : List Nat} (h : WordsRep m b σ L) (n : Nat) :
    WordsRep ⟨m.cells, n⟩ b σ L :=
  ⟨h.dead, h.alive, h.apart, h.lost, h.nodup, h.free, h.owned⟩

/-- A word moves to an unused variable. -/
theorem WordsRep.moved {m : Memory (List Letter)} {b : Vars WordCell} {σ : WordValues} {L : List Nat} (h : WordsRep m b σ L) {x y : Nat} (hx : σ x = none)
    {w : List Letter} {o : WordCell} (hy : σ y = some w) (ho : b y = some o) :
    WordsRep m ((b.set x (some o)).set y (some ⟨none, 0⟩)) ((σ.set x (some w)).set y (some [])) L := by
  have hd := h.dead x hx
  have hxy : x ≠ y := by rintro rfl; rw [hx] at hy; cases hy
  obtain ⟨o', ho', hst⟩ := h.alive y w hy
  rw [ho] at ho'; injection ho' with ho'; subst ho'
  have hobj : ∀ z, ((b.set x (some o)).set y (some ⟨none, 0⟩)) z =
      if z = y then some ⟨none, 0⟩ else if z = x then some o else b z := by intro z; rfl
  have hval : ∀ z, ((σ.set x (some w)).set y (some [])) z = if z = y then some [] else if z = x then some w else σ z := by
    intro z; rfl
  have origin : ∀ z o1 a, ((b.set x (some o)).set y (some ⟨none, 0⟩)) z = some o1 → o1.text = some a →
      (z = x ∧ o1 = o) ∨ (z ≠ x ∧ z ≠ y ∧ b z = some o1) := by
    intro z o1 a h1 h2
    rw [hobj] at h1
    split at h1
    · injection h1 with h1; subst h1; cases h2
    · split at h1
      · injection h1 with h1; left; exact ⟨‹_›, h1.symm⟩
      · right; exact ⟨‹_›, ‹_›, h1⟩
  refine ⟨?_, ?_, ?_, h.lost, h.nodup, ?_, ?_⟩
  · intro z hz
    rw [hval] at hz; rw [hobj]
    split at hz
    · cases hz
    · split at hz
      · cases hz
      · rw [if_neg ‹_›, if_neg ‹_›]; exact h.dead z hz
  · intro z v hz
    rw [hval] at hz; rw [hobj]
    split at hz
    · injection hz with hz; subst hz; rw [if_pos ‹_›]; exact ⟨_, rfl, Stands.nil _⟩
    · split at hz
      · injection hz with hz; subst hz; rw [if_neg ‹_›, if_pos ‹_›]; exact ⟨_, rfl, hst⟩
      · rw [if_neg ‹_›, if_neg ‹_›]; exact h.alive z v hz
  · intro z z' o1 o2 a h1 h2 h3 h4
    rcases origin z o1 a h1 h3 with ⟨e1, rfl⟩ | ⟨e1, e2, e3⟩ <;> rcases origin z' o2 a h2 h4 with ⟨e1', rfl⟩ | ⟨e1', e2', e3'⟩
    · rw [e1, e1']
    · exact absurd (h.apart y z' _ _ a ho e3' h3 h4) (Ne.symm e2')
    · exact absurd (h.apart z y _ _ a e3 ho h3 h4) e2
    · exact h.apart z z' _ _ a e3 e3' h3 h4
  · intro z o1 a h1 h2
    rcases origin z o1 a h1 h2 with ⟨e1, rfl⟩ | ⟨e1, e2, e3⟩
    · exact h.free y _ a ho h2
    · exact h.free z o1 a e3 h2
  · intro a ha
    rcases h.owned a ha with hl | ⟨z, o1, h1, h2⟩
    · exact Or.inl hl
    · right
      by_cases e : z = y
      · subst e
        rw [ho] at h1; injection h1 with h1; subst h1
        exact ⟨x, _, by rw [hobj, if_neg hxy, if_pos rfl], h2⟩
      · have e' : z ≠ x := by rintro rfl; rw [hd] at h1; cases h1
        exact ⟨z, o1, by rw [hobj, if_neg e, if_neg e']; exact h1, h2⟩

theorem WordsRep.start : WordsRep Words.start.mem Words.start.objs (fun _ => none) [] :=
  ⟨fun _ _ => rfl, by simp, by simp [Words.start], by simp, List.nodup_nil, by simp, by
    rintro a ⟨v, hv⟩; simp [Words.start] at hv⟩

/-- The ways in which a conversion ends. -/
theorem convert_ends [Build] [Icu] (grant : Nat → Bool) (m : Memory (List Letter)) (t : Bytes) :
    (grant m.asked = false ∧ Words.convert grant m t = (⟨m.cells, m.asked + 1⟩, ⟨none, 0⟩, .badAlloc)) ∨
    (¬ WellFormed t ∧ Word.ofUtf8 t = .error .runtimeError ∧
      Words.convert grant m t = (⟨m.cells ++ [some []], m.asked + 1⟩, ⟨none, 0⟩, .threw .runtimeError)) ∨
    (Word.ofUtf8 t = .error .invalidArgument ∧ ∃ n,
      Words.convert grant m t = (⟨m.cells, m.asked + 1⟩, ⟨none, n⟩, .threw .invalidArgument)) ∨
    ∃ w, Word.ofUtf8 t = .ok w ∧ Words.convert grant m t =
      (⟨m.cells ++ [some (w ++ [0#16])], m.asked + 1⟩, ⟨some m.cells.length, w.length⟩, .done) := by
  by_cases hw : WellFormed t
  · obtain ⟨c, hc⟩ := hw
    unfold Words.convert Word.ofUtf8
    rw [utf8ToInternal_ok hc]
    simp only [ok_bind]
    cases hg : grant m.asked with
    | false => left; simp
    | true =>
      right; right
      by_cases hb : hasWhitespace (lettersOf c) = true
      · left; simp [hb]
      · right
        refine ⟨lettersOf c, ?_, ?_⟩
        · simp [hb, hasBrokenSurrogates_utf16 (lettersOf_lowerCp hc)]
        · simp [hb, hasBrokenSurrogates_utf16 (lettersOf_lowerCp hc), Memory.alloc, hg]
  · unfold Words.convert Word.ofUtf8
    rw [utf8ToInternal_bad hw]
    cases hg : grant m.asked with
    | false => left; simp [Memory.alloc, hg]
    | true => right; left; exact ⟨hw, rfl, by simp [Memory.alloc, hg]⟩

/-- Duplicating a word. -/
theorem duplicate_ends {grant : Nat → Bool} {m : Memory (List Letter)} {old : Option Nat} {o : WordCell} {w : List Letter}
    (h : Stands m o w) :
    (w = [] ∧ Words.duplicate grant m old o = .ok (m, ⟨none, 0⟩, .done)) ∨
    (grant m.asked = false ∧ Words.duplicate grant m old o = .ok (⟨m.cells, m.asked + 1⟩, ⟨old, w.length⟩, .badAlloc)) ∨
    Words.duplicate grant m old o =
      .ok (⟨m.cells ++ [some (w ++ [0#16])], m.asked + 1⟩, ⟨some m.cells.length, w.length⟩, .done) := by
  obtain ⟨h1, h2⟩ := h
  unfold Words.duplicate
  by_cases h0 : o.len = 0
  · left
    rw [h1] at h0
    exact ⟨List.eq_nil_of_length_eq_zero h0, by simp [h1, h0]⟩
  · right
    rw [if_neg h0]
    cases ht : o.text with
    | none => rw [ht] at h2; simp only at h2; rw [h1, h2] at h0; exact absurd rfl h0
    | some a =>
      rw [ht] at h2
      cases hg : grant m.asked with
      | false => left; simp [h1]
      | true =>
        right
        rw [if_neg (by simp), Memory.load_of h2]
        simp [h1, Memory.alloc, hg, List.take_of_length_le]

theorem Vars.set_set {α : Type} (v : Vars α) (x : Nat) (o o' : Option α) : (v.set x o).set x o' = v.set x o' := by
  funext y; by_cases h : y = x <;> simp [Vars.set, h]

section
variable [Build] [Icu] {grant : Nat → Bool}

omit [Build] [Icu] in
theorem Words.obj_of {mem : Memory (List Letter)} {objs : Vars WordCell} {x : Nat} {o : WordCell} (h : objs x = some o) :
    Words.obj ⟨mem, objs⟩ x = .ok o := by
  simp [Words.obj, h]

/-- The two steps without a rule. -/
def WordHazard (grant : Nat → Bool) (s : Words) (op : WordOp) : Prop :=
  (∃ x y s', op = .assign x y ∧ s.run grant op = .ok (s', .badAlloc)) ∨
  (∃ x t s', op = .assignText x t ∧ Word.ofUtf8 t = .error .invalidArgument ∧ s.run grant op = .ok (s', .threw .invalidArgument))

/-- Every valid step of the code is one with values, except the two without a rule. -/
theorem words_step {s : Words} {σ : WordValues} {L : List Nat} (h : WordsRep s.mem s.objs σ L) {op : WordOp} (hv : op.Valid σ) :
    (∃ s' r σ' L', s.run grant op = .ok (s', r) ∧ WordStep σ op r σ' ∧ WordsRep s'.mem s'.objs σ' L' ∧
      L'.length = L.length + if Failed (op, r) then 1 else 0) ∨ WordHazard grant s op := by
  obtain ⟨mem, objs⟩ := s
  dsimp only at h
  have live : ∀ {x}, σ x ≠ none → ∃ w o, σ x = some w ∧ objs x = some o ∧ Stands mem o w := by
    intro x hx
    obtain ⟨w, hw⟩ := Option.ne_none_iff_exists'.1 hx
    obtain ⟨o, h1, h2⟩ := h.alive x w hw
    exact ⟨w, o, hw, h1, h2⟩
  cases op with
  | default x =>
    left
    exact ⟨_, _, _, L, rfl, .default, h.empty hv, by simp [Failed]⟩
  | text x t =>
    left
    rcases convert_ends grant mem t with ⟨_, e⟩ | ⟨_, e1, e⟩ | ⟨e1, n, e⟩ | ⟨w, e1, e⟩
    · exact ⟨⟨_, objs⟩, .badAlloc, σ, L, by simp only [Words.run, e]; rfl, .textRefused, h.asked _, by simp [Failed]⟩
    · exact ⟨⟨_, objs⟩, .threw .runtimeError, σ, _, by simp only [Words.run, e]; rfl, .textBad e1, h.leak _ _, by simp [Failed]⟩
    · exact ⟨⟨_, objs⟩, .threw .invalidArgument, σ, L, by simp only [Words.run, e]; rfl, .textBad e1, h.asked _, by simp [Failed]⟩
    · exact ⟨⟨_, _⟩, .done, _, L, by simp only [Words.run, e]; rfl, .text e1, h.fill hv w _, by simp [Failed]⟩
  | copy x y =>
    left
    obtain ⟨w, o, h1, h2, h3⟩ := live hv.2
    rcases duplicate_ends (grant := grant) (old := none) h3 with ⟨rfl, e⟩ | ⟨_, e⟩ | e
    · exact ⟨⟨_, _⟩, .done, _, L, by simp only [Words.run, Words.obj_of h2, ok_bind, e]; rfl, .copy h1, h.empty hv.1, by simp [Failed]⟩
    · exact ⟨⟨_, objs⟩, .badAlloc, σ, L, by simp only [Words.run, Words.obj_of h2, ok_bind, e]; rfl, .copyRefused, h.asked _, by simp [Failed]⟩
    · exact ⟨⟨_, _⟩, .done, _, L, by simp only [Words.run, Words.obj_of h2, ok_bind, e]; rfl, .copy h1, h.fill hv.1 w _, by simp [Failed]⟩
  | move x y =>
    left
    obtain ⟨w, o, h1, h2, h3⟩ := live hv.2
    exact ⟨_, .done, _, L, by simp only [Words.run, Words.obj_of h2, ok_bind]; rfl, .move h1, h.moved hv.1 h1 h2, by simp [Failed]⟩
  | join x y z =>
    left
    obtain ⟨w, o, h1, h2, h3⟩ := live hv.2.1
    obtain ⟨w', o', h1', h2', h3'⟩ := live hv.2.2
    cases hg : grant mem.asked with
    | false =>
      exact ⟨⟨_, objs⟩, .badAlloc, σ, L, by simp only [Words.run, Words.obj_of h2, Words.obj_of h2', ok_bind, Memory.alloc, hg]; rfl,
        .joinRefused, h.asked _, by simp [Failed]⟩
    | true =>
      have e : Words.run grant ⟨mem, objs⟩ (.join x y z) =
          .ok (⟨⟨mem.cells ++ [some (w ++ w' ++ [0#16])], mem.asked + 1⟩,
            objs.set x (some ⟨some mem.cells.length, (w ++ w').length⟩)⟩, .done) := by
        simp only [Words.run, Words.obj_of h2, Words.obj_of h2', ok_bind, Memory.alloc, hg, if_true]
        rw [Stands.letters (s := ⟨mem, objs⟩) h3, Stands.letters (s := ⟨mem, objs⟩) h3']
        simp only [ok_bind]
        rw [Memory.store_of (v := []) (by simp)]
        simp [h3.1, h3'.1]
      exact ⟨_, .done, _, L, e, .join h1 h1', h.fill hv.1 _ _, by simp [Failed]⟩
  | assign x y =>
    obtain ⟨w, o, h1, h2, h3⟩ := live hv.1
    obtain ⟨w', o', h1', h2', h3'⟩ := live hv.2
    by_cases hxy : x = y
    · subst hxy
      left
      refine ⟨⟨mem, objs⟩, .done, σ, L, by simp only [Words.run, Words.obj_of h2, ok_bind, if_true], ?_, h, by simp [Failed]⟩
      have := WordStep.assign (x := x) h1
      rw [Vars.set_eq _ _ _ h1] at this
      exact this
    · obtain ⟨m, e1, _, h4⟩ := h.drop h1 h2
      have hy : Stands m o' w' := by
        obtain ⟨o2, h5, h6⟩ := h4.alive y w' (by rw [Vars.set_other _ _ (Ne.symm hxy)]; exact h1')
        rw [Vars.set_other _ _ (Ne.symm hxy), h2'] at h5
        injection h5 with h5; subst h5; exact h6
      have hx0 : (Vars.set σ x none) x = none := Vars.set_self _ _ _
      rcases duplicate_ends (grant := grant) (old := o.text) hy with ⟨rfl, e⟩ | ⟨_, e⟩ | e
      · left
        refine ⟨⟨_, _⟩, .done, _, L, by simp only [Words.run, Words.obj_of h2, Words.obj_of h2', ok_bind, if_neg hxy, e1, e]; rfl, .assign h1', ?_, by simp [Failed]⟩
        have := h4.empty hx0
        rwa [Vars.set_set, Vars.set_set] at this
      · right; left
        exact ⟨x, y, ⟨_, _⟩, rfl, by simp only [Words.run, Words.obj_of h2, Words.obj_of h2', ok_bind, if_neg hxy, e1, e]; rfl⟩
      · left
        refine ⟨⟨_, _⟩, .done, _, L, by simp only [Words.run, Words.obj_of h2, Words.obj_of h2', ok_bind, if_neg hxy, e1, e]; rfl, .assign h1', ?_, by simp [Failed]⟩
        have := h4.fill hx0 w' (m.asked + 1)
        rwa [Vars.set_set, Vars.set_set] at this
  | assignMove x y =>
    left
    obtain ⟨w, o, h1, h2, h3⟩ := live hv.1
    obtain ⟨w', o', h1', h2', h3'⟩ := live hv.2
    obtain ⟨m, e1, _, h4⟩ := h.drop h1 h2
    refine ⟨⟨_, _⟩, .done, _, L, by simp only [Words.run, Words.obj_of h2, Words.obj_of h2', ok_bind, e1]; rfl, .assignMove h1', ?_, by simp [Failed]⟩
    have hx0 : (Vars.set σ x none) x = none := Vars.set_self _ _ _
    by_cases hxy : x = y
    · subst hxy
      have := h4.empty hx0
      rw [Vars.set_set, Vars.set_set] at this
      rw [Vars.set_set, Vars.set_set]
      exact this
    · have := h4.moved hx0 (y := y) (w := w') (o := o') (by rw [Vars.set_other _ _ (Ne.symm hxy)]; exact h1')
        (by rw [Vars.set_other _ _ (Ne.symm hxy)]; exact h2')
      rwa [Vars.set_set, Vars.set_set] at this
  | assignText x t =>
    obtain ⟨w, o, h1, h2, h3⟩ := live hv
    obtain ⟨m, e1, _, h4⟩ := h.drop h1 h2
    have hx0 : (Vars.set σ x none) x = none := Vars.set_self _ _ _
    have he := h4.empty hx0
    rw [Vars.set_set, Vars.set_set] at he
    rcases convert_ends grant m t with ⟨_, e⟩ | ⟨hw, _, e⟩ | ⟨e2, n, e⟩ | ⟨w', e2, e⟩
    · left
      exact ⟨⟨_, _⟩, .badAlloc, _, L, by simp only [Words.run, Words.obj_of h2, ok_bind, e1, e]; rfl, .assignTextRefused, he.asked _, by simp [Failed]⟩
    · left
      exact ⟨⟨_, _⟩, .threw .runtimeError, _, _, by simp only [Words.run, Words.obj_of h2, ok_bind, e1, e]; rfl, .assignTextBad hw, he.leak _ _, by simp [Failed]⟩
    · right; right
      exact ⟨x, t, ⟨_, _⟩, rfl, e2, by simp only [Words.run, Words.obj_of h2, ok_bind, e1, e]; rfl⟩
    · left
      refine ⟨⟨_, _⟩, .done, _, L, by simp only [Words.run, Words.obj_of h2, ok_bind, e1, e]; rfl, .assignText e2, ?_, by simp [Failed]⟩
      have := h4.fill hx0 w' (m.asked + 1)
      rwa [Vars.set_set, Vars.set_set] at this
  | destroy x =>
    left
    obtain ⟨w, o, h1, h2, h3⟩ := live hv
    obtain ⟨m, e1, _, h4⟩ := h.drop h1 h2
    exact ⟨⟨_, _⟩, .done, _, L, by simp only [Words.run, Words.obj_of h2, ok_bind, e1]; rfl, .destroy, h4, by simp [Failed]⟩
  | letter x i =>
    left
    obtain ⟨w, o, h1, h2, h3⟩ := live hv
    by_cases hi : o.len ≤ i
    · refine ⟨⟨mem, objs⟩, .threw .outOfRange, σ, L, by simp only [Words.run, Words.obj_of h2, ok_bind, if_pos hi], .letterOut h1 ?_, h, by simp [Failed]⟩
      rw [← h3.1]; exact hi
    · have hl : i < w.length := by rw [← h3.1]; omega
      cases ht : o.text with
      | none => have := h3.2; rw [ht] at this; simp only at this; rw [this] at hl; simp at hl
      | some a =>
        have ha := h3.live ht
        refine ⟨⟨mem, objs⟩, .letter w[i], σ, L, ?_, .letter h1 (List.getElem?_eq_getElem hl), h, by simp [Failed]⟩
        simp only [Words.run, Words.obj_of h2, ok_bind, if_neg hi, ht, Memory.load_of ha]
        rw [List.getElem?_append_left hl, List.getElem?_eq_getElem hl]
  | same x y =>
    left
    obtain ⟨w, o, h1, h2, h3⟩ := live hv.1
    obtain ⟨w', o', h1', h2', h3'⟩ := live hv.2
    refine ⟨⟨mem, objs⟩, .truth (decide (w = w')), σ, L, ?_, .same h1 h1' (by simp), h, by simp [Failed]⟩
    simp only [Words.run, Words.obj_of h2, Words.obj_of h2', ok_bind]
    split
    · rename_i e; subst e; rw [h1] at h1'; injection h1' with h1'; simp [h1']
    · split
      · rename_i e
        have : w ≠ w' := by rintro rfl; exact e (h3.1.trans h3'.1.symm)
        simp [this]
      · rw [Stands.letters (s := ⟨mem, objs⟩) h3, Stands.letters (s := ⟨mem, objs⟩) h3']; rfl
  | before x y =>
    left
    obtain ⟨w, o, h1, h2, h3⟩ := live hv.1
    obtain ⟨w', o', h1', h2', h3'⟩ := live hv.2
    refine ⟨⟨mem, objs⟩, .truth (Word.lt w w'), σ, L, ?_, .before h1 h1' (Word.lt_lex _ _), h, by simp [Failed]⟩
    simp only [Words.run, Words.obj_of h2, Words.obj_of h2', ok_bind]
    split
    · rename_i e; subst e; rw [h1] at h1'; injection h1' with h1'; rw [h1', Word.lt_irrefl]
    · rw [Stands.letters (s := ⟨mem, objs⟩) h3, Stands.letters (s := ⟨mem, objs⟩) h3']; rfl

/-- What a step with values does is determined by what the program sees. -/
theorem WordStep.det {σ σ₁ σ₂ : WordValues} {op : WordOp} {r : WordRet} (h₁ : WordStep σ op r σ₁) (h₂ : WordStep σ op r σ₂) : σ₁ = σ₂ := by
  cases h₁ <;> cases h₂ <;> simp_all

theorem WordsRan.rep {tr : List (WordOp × WordRet)} {s : Words} {σ : WordValues} (h : WordsRan grant tr s σ) :
    ∃ L, WordsRep s.mem s.objs σ L ∧ L.length = (tr.filter Failed).length := by
  induction h with
  | start => exact ⟨[], .start, rfl⟩
  | @step tr s σ op r s' σ' _ hv e hs ih =>
    obtain ⟨L, hL, hn⟩ := ih
    rcases words_step (grant := grant) hL hv with ⟨s1, r1, σ1, L1, e1, hs1, h1, hn1⟩ | ⟨x, y, s1, rfl, e1⟩ | ⟨x, t, s1, rfl, e2, e1⟩
    · rw [e] at e1; injection e1 with e1; injection e1 with e1 e2; subst e1; subst e2
      rw [Columbus.WordStep.det hs hs1]
      refine ⟨L1, h1, ?_⟩
      rw [List.filter_append, List.length_append, ← hn, hn1]
      by_cases hf : Failed (op, r) = true <;> simp [hf]
    · rw [e] at e1; injection e1 with e1; injection e1 with e1 e2; subst e2; cases hs
    · rw [e] at e1; injection e1 with e1; injection e1 with e1 e3; subst e3
      cases hs

/-- Memory runs out only when a request is refused. -/
theorem run_badAlloc {s s' : Words} {σ : WordValues} {L : List Nat} (h : WordsRep s.mem s.objs σ L) {op : WordOp} (hv : op.Valid σ)
    (e : s.run grant op = .ok (s', .badAlloc)) : grant s.mem.asked = false := by
  obtain ⟨mem, objs⟩ := s
  dsimp only at h
  have stands : ∀ {x}, σ x ≠ none → ∃ w o, σ x = some w ∧ objs x = some o ∧ Stands mem o w := by
    intro x hx
    obtain ⟨w, hw⟩ := Option.ne_none_iff_exists'.1 hx
    obtain ⟨o, h1, h2⟩ := h.alive x w hw
    exact ⟨w, o, hw, h1, h2⟩
  cases op with
  | default x => simp [Words.run] at e
  | text x t =>
    rcases convert_ends grant mem t with ⟨hg, _⟩ | ⟨_, _, hc⟩ | ⟨_, n, hc⟩ | ⟨w, _, hc⟩
    · exact hg
    all_goals simp [Words.run, hc] at e
  | copy x y =>
    obtain ⟨w, o, h1, h2, h3⟩ := stands hv.2
    rcases duplicate_ends (grant := grant) (old := none) h3 with ⟨_, hc⟩ | ⟨hg, _⟩ | hc
    · simp [Words.run, Words.obj_of h2, hc] at e
    · exact hg
    · simp [Words.run, Words.obj_of h2, hc] at e
  | move x y =>
    obtain ⟨w, o, h1, h2, h3⟩ := stands hv.2
    simp [Words.run, Words.obj_of h2] at e
  | join x y z =>
    obtain ⟨w, o, h1, h2, h3⟩ := stands hv.2.1
    obtain ⟨w', o', h1', h2', h3'⟩ := stands hv.2.2
    cases hg : grant mem.asked with
    | false => rfl
    | true =>
      have l1 := Stands.letters (s := ⟨mem, objs⟩) h3
      have l2 := Stands.letters (s := ⟨mem, objs⟩) h3'
      simp [Words.run, Words.obj_of h2, Words.obj_of h2', Memory.alloc, hg, l1, l2, Memory.store] at e
  | assign x y =>
    obtain ⟨w, o, h1, h2, h3⟩ := stands hv.1
    obtain ⟨w', o', h1', h2', h3'⟩ := stands hv.2
    by_cases hxy : x = y
    · simp [Words.run, hxy, Words.obj_of h2'] at e
    · obtain ⟨m', e1, ha, h4⟩ := h.drop h1 h2
      obtain ⟨o2, h5, h6⟩ := h4.alive y w' (by rw [Vars.set_other _ _ (Ne.symm hxy)]; exact h1')
      rw [Vars.set_other _ _ (Ne.symm hxy), h2'] at h5; injection h5 with h5; subst h5
      rcases duplicate_ends (grant := grant) (old := o.text) h6 with ⟨_, hc⟩ | ⟨hg, _⟩ | hc
      · simp [Words.run, Words.obj_of h2, Words.obj_of h2', hxy, e1, hc] at e
      · rw [ha] at hg; exact hg
      · simp [Words.run, Words.obj_of h2, Words.obj_of h2', hxy, e1, hc] at e
  | assignMove x y =>
    obtain ⟨w, o, h1, h2, h3⟩ := stands hv.1
    obtain ⟨w', o', h1', h2', h3'⟩ := stands hv.2
    obtain ⟨m', e1, ha, h4⟩ := h.drop h1 h2
    simp [Words.run, Words.obj_of h2, Words.obj_of h2', e1] at e
  | assignText x t =>
    obtain ⟨w, o, h1, h2, h3⟩ := stands hv
    obtain ⟨m', e1, ha, h4⟩ := h.drop h1 h2
    rcases convert_ends grant m' t with ⟨hg, _⟩ | ⟨_, _, hc⟩ | ⟨_, n, hc⟩ | ⟨w, _, hc⟩
    · rw [ha] at hg; exact hg
    all_goals simp [Words.run, Words.obj_of h2, e1, hc] at e
  | destroy x =>
    obtain ⟨w, o, h1, h2, h3⟩ := stands hv
    obtain ⟨m', e1, ha, h4⟩ := h.drop h1 h2
    simp [Words.run, Words.obj_of h2, e1] at e
  | letter x i =>
    obtain ⟨w, o, h1, h2, h3⟩ := stands hv
    simp only [Words.run, Words.obj_of h2, ok_bind] at e
    split at e
    · simp at e
    · cases hl : mem.load o.text with
      | error f => rw [hl] at e; simp at e
      | ok arr =>
        rw [hl] at e
        simp only [ok_bind] at e
        split at e <;> simp at e
  | same x y =>
    obtain ⟨w, o, h1, h2, h3⟩ := stands hv.1
    obtain ⟨w', o', h1', h2', h3'⟩ := stands hv.2
    simp only [Words.run, Words.obj_of h2, Words.obj_of h2', ok_bind, Stands.letters (s := ⟨mem, objs⟩) h3, Stands.letters (s := ⟨mem, objs⟩) h3'] at e
    split at e
    · simp at e
    · split at e <;> simp at e
  | before x y =>
    obtain ⟨w, o, h1, h2, h3⟩ := stands hv.1
    obtain ⟨w', o', h1', h2', h3'⟩ := stands hv.2
    simp only [Words.run, Words.obj_of h2, Words.obj_of h2', ok_bind, Stands.letters (s := ⟨mem, objs⟩) h3, Stands.letters (s := ⟨mem, objs⟩) h3'] at e
    split at e <;> simp at e

/-- The outcome of a step with values. -/
theorem WordStep.outcome {σ σ₁ σ₂ : WordValues} {op : WordOp} {r₁ r₂ : WordRet} (h₁ : WordStep σ op r₁ σ₁) (h₂ : WordStep σ op r₂ σ₂)
    (hr₁ : r₁ ≠ .badAlloc) (hr₂ : r₂ ≠ .badAlloc) : r₁ = r₂ ∧ σ₁ = σ₂ := by
  have wf : ∀ {t w}, Word.ofUtf8 t = .ok w → ¬ WellFormed t → False := by
    intro t w h hn
    rw [Word.ofUtf8, utf8ToInternal_bad hn] at h; cases h
  cases h₁ <;> cases h₂ <;> simp_all
  all_goals first
    | exact (wf ‹_› ‹_›).elim
    | (rename_i h1 _ _ h2; exact Bool.eq_iff_iff.2 (by simp_all))

/-- A refused copy assignment. -/
theorem assign_refused {s : Words} {σ : WordValues} {L : List Nat} (h : WordsRep s.mem s.objs σ L) {x y : Nat} (hxy : x ≠ y)
    {v w : List Letter} (hx : σ x = some v) (hy : σ y = some w) (hv : v ≠ []) (hw : w ≠ []) (hg : grant s.mem.asked = false) :
    ∃ s', s.run grant (.assign x y) = .ok (s', .badAlloc) ∧ s'.run grant (.destroy x) = .error .ub ∧
      s'.run grant (.letter x 0) = .error .ub := by
  obtain ⟨mem, objs⟩ := s
  dsimp only at h hg
  obtain ⟨o, h1, h2⟩ := h.alive x v hx
  obtain ⟨o', h1', h2'⟩ := h.alive y w hy
  have hl : o'.len ≠ 0 := by rw [h2'.1]; simpa using hw
  cases ht : o.text with
  | none => have := h2.2; rw [ht] at this; exact absurd this hv
  | some a =>
    have ha := h2.live ht
    have hlt := cells_lt ha
    refine ⟨⟨⟨mem.cells.set a none, mem.asked + 1⟩, objs.set x (some ⟨some a, o'.len⟩)⟩, ?_, ?_, ?_⟩
    · simp [Words.run, Words.obj, h1, h1', hxy, ht, Memory.free_of ha, Words.duplicate, hl, hg]
    · simp [Words.run, Words.obj, Vars.set, Memory.free, hlt]
    · simp [Words.run, Words.obj, Vars.set, Memory.load, hlt, hl]

/-- The assignment of text with blanks. -/
theorem assignText_blanks {s : Words} {σ : WordValues} {L : List Nat} (h : WordsRep s.mem s.objs σ L) {x : Nat} {v : List Letter}
    (hx : σ x = some v) {t : Bytes} (ht : Word.ofUtf8 t = .error .invalidArgument) (hg : grant s.mem.asked = true) :
    ∃ s', s.run grant (.assignText x t) = .ok (s', .threw .invalidArgument) ∧ s'.run grant (.letter x 0) = .error .ub := by
  obtain ⟨mem, objs⟩ := s
  dsimp only at h hg
  obtain ⟨o, h1, h2⟩ := h.alive x v hx
  obtain ⟨m', e1, ha, h4⟩ := h.drop hx h1
  by_cases hwf : WellFormed t
  · obtain ⟨c, hc⟩ := hwf
    have hb : hasWhitespace (lettersOf c) = true := by
      by_contra hb
      simp [Word.ofUtf8, utf8ToInternal_ok hc, hb, hasBrokenSurrogates_utf16 (lettersOf_lowerCp hc)] at ht
    have hne : lettersOf c ≠ [] := by rintro e; rw [e] at hb; cases hb
    have hconv : Words.convert grant m' t = (⟨m'.cells, m'.asked + 1⟩, ⟨none, (lettersOf c).length⟩, .threw .invalidArgument) := by
      simp [Words.convert, utf8ToInternal_ok hc, hb, ha, hg]
    refine ⟨⟨⟨m'.cells, m'.asked + 1⟩, objs.set x (some ⟨none, (lettersOf c).length⟩)⟩, ?_, ?_⟩
    · simp [Words.run, Words.obj, h1, e1, hconv]
    · simp [Words.run, Words.obj, Vars.set, Memory.load, hne]
  · rw [Word.ofUtf8, utf8ToInternal_bad hwf] at ht; cases ht

end
end Columbus
