import Verif.Proofs.EditFacts
/-
Edits one after the other.
-/

namespace Columbus
open Columbus Spec

theorem edits_append {x u y v : List Letter} {n m : Nat} (h : Edits x u n) (h' : Edits y v m) : Edits (x ++ y) (u ++ v) (n + m) := by
  induction h' with
  | nil => simpa using h
  | delete a _ ih => rw [← List.append_assoc]; exact .delete a ih
  | insert b _ ih => rw [← List.append_assoc]; exact .insert b ih
  | keep a _ ih => rw [← List.append_assoc, ← List.append_assoc]; exact .keep a ih
  | replace a b _ ih => rw [← List.append_assoc, ← List.append_assoc]; exact .replace a b ih
  | swap a b _ ih => rw [← List.append_assoc, ← List.append_assoc]; exact .swap a b ih

theorem edits_erase (x : List Letter) : Edits x [] x.length := by
  induction x using List.reverseRecOn with
  | nil => exact .nil
  | append_singleton x a ih =>
    have := Edits.delete a ih
    rwa [List.length_append]

theorem edits_length {x w : List Letter} {n : Nat} (h : Edits x w n) : x.length ≤ w.length + n ∧ w.length ≤ x.length + n := by
  induction h with
  | nil => simp
  | _ => simp only [List.length_append, List.length_cons, List.length_nil] at *; omega

/-- Edits up to a place of the word, and after it; or letters are swapped across the place. -/
theorem edits_split {x W : List Letter} {n : Nat} (h : Edits x W n) : ∀ u v, W = u ++ v →
    (∃ x1 x2 n1 n2, x = x1 ++ x2 ∧ Edits x1 u n1 ∧ Edits x2 v n2 ∧ n = n1 + n2) ∨
    ∃ x1 a b x2 u' v' n1 n2, x = x1 ++ [a, b] ++ x2 ∧ u = u' ++ [b] ∧ v = a :: v' ∧ Edits x1 u' n1 ∧ Edits x2 v' n2 ∧ n = n1 + n2 + 1 := by
  induction h with
  | nil =>
    intro u v e
    obtain ⟨rfl, rfl⟩ := List.append_eq_nil_iff.1 e.symm
    exact Or.inl ⟨[], [], 0, 0, rfl, .nil, .nil, rfl⟩
  | delete a h ih =>
    intro u v e
    rcases ih u v e with ⟨x1, x2, n1, n2, rfl, h1, h2, rfl⟩ | ⟨x1, c, b, x2, u', v', n1, n2, rfl, h3, h4, h1, h2, rfl⟩
    · exact Or.inl ⟨x1, x2 ++ [a], n1, n2 + 1, by simp, h1, .delete a h2, by omega⟩
    · exact Or.inr ⟨x1, c, b, x2 ++ [a], u', v', n1, n2 + 1, by simp, h3, h4, h1, .delete a h2, by omega⟩
  | insert b h ih =>
    intro u v e
    rcases List.eq_nil_or_concat v with rfl | ⟨v, c, rfl⟩
    · rw [List.append_nil] at e
      subst e
      exact Or.inl ⟨_, [], _, 0, by simp, .insert b h, .nil, rfl⟩
    · rw [List.concat_eq_append, ← List.append_assoc] at e
      obtain ⟨e1, e2⟩ := List.append_inj' e rfl
      cases e2
      rcases ih u v e1 with ⟨x1, x2, n1, n2, rfl, h1, h2, rfl⟩ | ⟨x1, c, b', x2, u', v', n1, n2, rfl, h3, rfl, h1, h2, rfl⟩
      · exact Or.inl ⟨x1, x2, n1, n2 + 1, rfl, h1, by simpa using Edits.insert b h2, by omega⟩
      · exact Or.inr ⟨x1, c, b', x2, u', v' ++ [b], n1, n2 + 1, rfl, h3, by simp, h1, .insert b h2, by omega⟩
  | keep a h ih =>
    intro u v e
    rcases List.eq_nil_or_concat v with rfl | ⟨v, c, rfl⟩
    · rw [List.append_nil] at e
      subst e
      exact Or.inl ⟨_, [], _, 0, (List.append_nil _).symm, .keep a h, .nil, rfl⟩
    · rw [List.concat_eq_append, ← List.append_assoc] at e
      obtain ⟨e1, e2⟩ := List.append_inj' e rfl
      cases e2
      rcases ih u v e1 with ⟨x1, x2, n1, n2, rfl, h1, h2, rfl⟩ | ⟨x1, c, b', x2, u', v', n1, n2, rfl, h3, rfl, h1, h2, rfl⟩
      · exact Or.inl ⟨x1, x2 ++ [a], n1, n2, by simp, h1, by simpa using Edits.keep a h2, rfl⟩
      · exact Or.inr ⟨x1, c, b', x2 ++ [a], u', v' ++ [a], n1, n2, by simp, h3, by simp, h1, .keep a h2, rfl⟩
  | replace a b h ih =>
    intro u v e
    rcases List.eq_nil_or_concat v with rfl | ⟨v, c, rfl⟩
    · rw [List.append_nil] at e
      subst e
      exact Or.inl ⟨_, [], _, 0, (List.append_nil _).symm, .replace a b h, .nil, rfl⟩
    · rw [List.concat_eq_append, ← List.append_assoc] at e
      obtain ⟨e1, e2⟩ := List.append_inj' e rfl
      cases e2
      rcases ih u v e1 with ⟨x1, x2, n1, n2, rfl, h1, h2, rfl⟩ | ⟨x1, c, b', x2, u', v', n1, n2, rfl, h3, rfl, h1, h2, rfl⟩
      · exact Or.inl ⟨x1, x2 ++ [a], n1, n2 + 1, by simp, h1, by simpa using Edits.replace a b h2, by omega⟩
      · exact Or.inr ⟨x1, c, b', x2 ++ [a], u', v' ++ [b], n1, n2 + 1, by simp, h3, by simp, h1, .replace a b h2, by omega⟩
  | @swap q w n a b h ih =>
    intro u v e
    rcases List.eq_nil_or_concat v with rfl | ⟨v, c, rfl⟩
    · rw [List.append_nil] at e
      subst e
      exact Or.inl ⟨_, [], _, 0, (List.append_nil _).symm, .swap a b h, .nil, rfl⟩
    · have e' : (w ++ [b]) ++ [a] = (u ++ v) ++ [c] := by simpa using e
      obtain ⟨e1, e2⟩ := List.append_inj' e' rfl
      cases e2
      rcases List.eq_nil_or_concat v with rfl | ⟨v, d, rfl⟩
      · rw [List.append_nil] at e1
        subst e1
        exact Or.inr ⟨q, a, b, [], w, [], n, 0, by simp, rfl, rfl, h, .nil, by omega⟩
      · rw [List.concat_eq_append, ← List.append_assoc] at e1
        obtain ⟨e3, e2⟩ := List.append_inj' e1 rfl
        cases e2
        rcases ih u v e3 with ⟨x1, x2, n1, n2, rfl, h1, h2, rfl⟩ | ⟨x1, c, b', x2, u', v', n1, n2, rfl, h3, rfl, h1, h2, rfl⟩
        · exact Or.inl ⟨x1, x2 ++ [a, b], n1, n2 + 1, by simp, h1, by simpa using Edits.swap a b h2, by omega⟩
        · exact Or.inr ⟨x1, c, b', x2 ++ [a, b], u', v' ++ [b, a], n1, n2 + 1, by simp, h3, by simp, h1, .swap a b h2, by omega⟩

/-- Without a letter of the word, one edit more is enough. -/
theorem edits_without {x u v : List Letter} {c : Letter} {n : Nat} (h : Edits x (u ++ [c] ++ v) n) :
    ∃ m ≤ n + 1, Edits x (u ++ v) m := by
  rcases edits_split h (u ++ [c]) v rfl with ⟨x1, x2, n1, n2, rfl, h1, h2, rfl⟩ | ⟨x1, a, b, x2, u', v', n1, n2, rfl, h3, rfl, h1, h2, rfl⟩
  · rcases edits_split h1 u [c] rfl with ⟨p, r, j, k, rfl, h3, h4, rfl⟩ | ⟨p, a, b, r, u', v', j, k, rfl, rfl, h5, h3, h4, rfl⟩
    · have hl := (edits_length h4).1
      have := edits_append (edits_append h3 (edits_erase r)) h2
      rw [List.append_nil] at this
      exact ⟨_, by simp only [List.length_cons, List.length_nil] at hl; omega, this⟩
    · cases h5
      have := edits_append (edits_append (Edits.keep b (Edits.delete c h3)) h4) h2
      simp only [List.append_nil, List.append_assoc, List.cons_append, List.nil_append] at this ⊢
      exact ⟨_, by omega, this⟩
  · obtain ⟨e1, e2⟩ := List.append_inj' h3 rfl
    cases e2; subst e1
    have := edits_append (Edits.delete c (Edits.keep a h1)) h2
    simp only [List.append_assoc, List.cons_append, List.nil_append] at this ⊢
    exact ⟨_, by omega, this⟩

/-- With another letter in the word, one edit more is enough. -/
theorem edits_other {x u v : List Letter} {c : Letter} {n : Nat} (d : Letter) (h : Edits x (u ++ [c] ++ v) n) :
    ∃ m ≤ n + 1, Edits x (u ++ [d] ++ v) m := by
  rcases edits_split h (u ++ [c]) v rfl with ⟨x1, x2, n1, n2, rfl, h1, h2, rfl⟩ | ⟨x1, a, b, x2, u', v', n1, n2, rfl, h3, rfl, h1, h2, rfl⟩
  · rcases edits_split h1 u [c] rfl with ⟨p, r, j, k, rfl, h3, h4, rfl⟩ | ⟨p, a, b, r, u', v', j, k, rfl, rfl, h5, h3, h4, rfl⟩
    · have hl := edits_length h4
      simp only [List.length_cons, List.length_nil] at hl
      rcases List.eq_nil_or_concat r with rfl | ⟨r, e, rfl⟩
      · have := edits_append (Edits.insert d h3) h2
        simp only [List.append_nil, List.length_nil] at this hl ⊢
        exact ⟨_, by omega, this⟩
      · have := edits_append (Edits.replace e d (edits_append h3 (edits_erase r))) h2
        simp only [List.concat_eq_append, List.append_nil, List.append_assoc, List.length_append, List.length_cons, List.length_nil] at this hl ⊢
        exact ⟨_, by omega, this⟩
    · cases h5
      have := edits_append (edits_append (Edits.insert d (Edits.keep b (Edits.delete c h3))) h4) h2
      simp only [List.append_nil, List.append_assoc, List.cons_append, List.nil_append] at this ⊢
      exact ⟨_, by omega, this⟩
  · obtain ⟨e1, e2⟩ := List.append_inj' h3 rfl
    cases e2; subst e1
    have := edits_append (Edits.delete c (Edits.keep a (Edits.insert d h1))) h2
    simp only [List.append_assoc, List.cons_append, List.nil_append] at this ⊢
    exact ⟨_, by omega, this⟩

/-- With a further letter in the word, two edits more are enough. -/
theorem edits_further {x u v : List Letter} {n : Nat} (d : Letter) (h : Edits x (u ++ v) n) :
    ∃ m ≤ n + 2, Edits x (u ++ [d] ++ v) m := by
  rcases edits_split h u v rfl with ⟨x1, x2, n1, n2, rfl, h1, h2, rfl⟩ | ⟨x1, a, b, x2, u', v', n1, n2, rfl, rfl, rfl, h1, h2, rfl⟩
  · exact ⟨_, by omega, edits_append (Edits.insert d h1) h2⟩
  · have := edits_append (Edits.replace b a (Edits.insert d (Edits.replace a b h1))) h2
    simp only [List.append_assoc, List.cons_append, List.nil_append] at this ⊢
    exact ⟨_, by omega, this⟩

theorem edits_after {y z : List Letter} {k : Nat} (h : Edits y z k) : ∀ (x t : List Letter) (n : Nat), Edits x (y ++ t) n →
    ∃ m ≤ n + 2 * k, Edits x (z ++ t) m := by
  induction h with
  | nil => intro x t n h; exact ⟨n, by omega, h⟩
  | delete a _ ih =>
    intro x t n h
    obtain ⟨m, h1, h2⟩ := edits_without h
    obtain ⟨m', h3, h4⟩ := ih x t m h2
    exact ⟨m', by omega, h4⟩
  | insert b _ ih =>
    intro x t n h
    obtain ⟨m, h1, h2⟩ := edits_further b h
    rw [List.append_assoc] at h2
    obtain ⟨m', h3, h4⟩ := ih x ([b] ++ t) m h2
    exact ⟨m', by omega, by rwa [List.append_assoc]⟩
  | keep a _ ih =>
    intro x t n h
    rw [List.append_assoc] at h
    obtain ⟨m', h3, h4⟩ := ih x ([a] ++ t) n h
    exact ⟨m', by omega, by rwa [List.append_assoc]⟩
  | replace a b _ ih =>
    intro x t n h
    obtain ⟨m, h1, h2⟩ := edits_other b h
    rw [List.append_assoc] at h2
    obtain ⟨m', h3, h4⟩ := ih x ([b] ++ t) m h2
    exact ⟨m', by omega, by rwa [List.append_assoc]⟩
  | @swap q w k a b _ ih =>
    intro x t n h
    have h' : Edits x (q ++ [a] ++ ([b] ++ t)) n := by simpa using h
    obtain ⟨m, h1, h2⟩ := edits_other b h'
    have h2' : Edits x ((q ++ [b]) ++ [b] ++ t) m := by simpa using h2
    obtain ⟨m2, h3, h4⟩ := edits_other a h2'
    have h4' : Edits x (q ++ ([b, a] ++ t)) m2 := by simpa using h4
    obtain ⟨m', h5, h6⟩ := ih x ([b, a] ++ t) m2 h4'
    exact ⟨m', by omega, by rwa [List.append_assoc]⟩

end Columbus
