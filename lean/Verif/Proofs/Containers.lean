import Verif.Model.Containers
import Verif.Proofs.Word
/-
Lemmas about the containers.
-/

namespace Columbus

/-- A comparator under which only equal keys are equivalent. -/
def Strict {K : Type} (lt : K → K → Bool) : Prop := ∀ a b, (lt a b = false ∧ lt b a = false) ↔ a = b

theorem Strict.irrefl {K : Type} {lt : K → K → Bool} (h : Strict lt) (a : K) : lt a a = false := ((h a a).2 rfl).1

theorem strict_ltNat : Strict ltNat := by
  intro a b; simp only [ltNat, decide_eq_false_iff_not]; omega

theorem strict_ltLetter : Strict ltLetter := by
  intro a b
  simp only [ltLetter, decide_eq_false_iff_not]
  constructor
  · intro h; apply BitVec.eq_of_toNat_eq; omega
  · rintro rfl; omega

theorem strict_ltPair {A B : Type} {la : A → A → Bool} {lb : B → B → Bool} (ha : Strict la) (hb : Strict lb) :
    Strict (ltPair la lb) := by
  rintro ⟨a, b⟩ ⟨c, d⟩
  simp only [ltPair, Bool.or_eq_false_iff, Bool.and_eq_false_iff, Bool.not_eq_false', Prod.mk.injEq]
  constructor
  · rintro ⟨⟨h1, h2⟩, h3, h4⟩
    have hac := (ha a c).1 ⟨h1, h3⟩
    subst hac
    refine ⟨rfl, (hb b d).1 ⟨?_, ?_⟩⟩
    · rcases h2 with h2 | h2
      · rw [h2] at h3; cases h3
      · exact h2
    · rcases h4 with h4 | h4
      · rw [h4] at h3; cases h3
      · exact h4
  · rintro ⟨rfl, rfl⟩
    exact ⟨⟨ha.irrefl a, Or.inr (hb.irrefl b)⟩, ha.irrefl a, Or.inr (hb.irrefl b)⟩

namespace SMap
variable {K V : Type} {lt : K → K → Bool}

theorem find_nil (k : K) : find lt ([] : SMap K V) k = none := rfl

theorem find_cons (h : Strict lt) [DecidableEq K] (k' : K) (v : V) (r : SMap K V) (k : K) :
    find lt ((k', v) :: r) k = if k' = k then some v else find lt r k := by
  rw [find]
  by_cases e : k' = k
  · subst e; simp [h.irrefl]
  · have : (!lt k' k && !lt k k') = false := by
      rcases h1 : lt k' k
      · rcases h2 : lt k k'
        · exact absurd ((h k' k).1 ⟨h1, h2⟩) e
        · rfl
      · rfl
    rw [this, if_neg e]; simp

theorem find_set (h : Strict lt) [DecidableEq K] (m : SMap K V) (k : K) (v : V) (k' : K) :
    find lt (set lt m k v) k' = if k = k' then some v else find lt m k' := by
  induction m with
  | nil => rw [set, find_cons h]
  | cons p r ih =>
    obtain ⟨k2, v2⟩ := p
    rw [set]
    rcases h1 : lt k2 k
    · simp only [Bool.false_eq_true, if_false]
      rcases h2 : lt k k2
      · have := (h k2 k).1 ⟨h1, h2⟩
        subst this
        simp only [Bool.false_eq_true, if_false, find_cons h]
        split <;> rfl
      · simp only [if_true, find_cons h]
    · simp only [if_true, find_cons h, ih]
      by_cases e : k2 = k'
      · have : k ≠ k' := by
          rintro rfl; subst e; rw [h.irrefl] at h1; cases h1
        simp [e, this]
      · simp [e]

theorem mem_find (h : Strict lt) [DecidableEq K] {m : SMap K V} {k : K} {v : V} (hf : find lt m k = some v) : (k, v) ∈ m := by
  induction m with
  | nil => cases hf
  | cons p r ih =>
    obtain ⟨k2, v2⟩ := p
    rw [find_cons h] at hf
    split at hf
    · rename_i e; subst e; injection hf with hf; subst hf; simp
    · exact List.mem_cons_of_mem _ (ih hf)

end SMap

namespace HMap
variable {K V : Type} [DecidableEq K]

theorem find_set (m : HMap K V) (k : K) (v : V) (k' : K) : find (set m k v) k' = if k = k' then some v else find m k' := by
  induction m with
  | nil => simp [set, find]
  | cons p r ih =>
    obtain ⟨k2, v2⟩ := p
    rw [set]
    by_cases e : k2 = k
    · subst e; simp only [if_true, find]; split <;> rfl
    · rw [if_neg e]; simp only [find, ih]
      by_cases e2 : k2 = k'
      · subst e2; simp [Ne.symm e]
      · simp [e2]

end HMap

end Columbus
