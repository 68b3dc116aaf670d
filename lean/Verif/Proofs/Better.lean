import Verif.Proofs.MatcherMore
/-
Comparing two documents of one search.
-/

namespace Columbus
open Spec

section
variable [Fp]

/-- A part of the sum is not larger than the sum. -/
theorem foldl_sublist {Q Q' : List ℚ} (h : Q.Sublist Q') : ∀ a a' : ℚ, (∀ x ∈ Q', 0 ≤ x) → a ≤ a' → Fp.rnd a' = a' →
    Q.foldl fadd a ≤ Q'.foldl fadd a' := by
  induction h with
  | slnil => intro a a' _ h _; exact h
  | @cons l l' x h ih =>
    intro a a' h0 hle hr
    rw [List.foldl_cons]
    refine ih _ _ (fun y hy => h0 y (by simp [hy])) (le_trans hle ?_) (Fp.rnd_idem _)
    have := Fp.rnd_mono a' (a' + x) (by have := h0 x (by simp); linarith)
    rwa [hr] at this
  | @cons_cons l l' x h ih =>
    intro a a' h0 hle hr
    rw [List.foldl_cons, List.foldl_cons]
    exact ih _ _ (fun y hy => h0 y (by simp [hy])) (fadd_mono hle (le_refl _)) (Fp.rnd_idem _)

theorem sumUp_sublist {Q Q' : List ℚ} (h : Q.Sublist Q') (h0 : ∀ x ∈ Q', 0 ≤ x) (hr : ∀ x ∈ Q', Fp.rnd x = x) :
    sumUp Q ≤ sumUp Q' := by
  rw [sumUp_zero hr, sumUp_zero fun x hx => hr x (h.subset hx)]
  refine foldl_sublist h 0 0 h0 (le_refl _) ?_
  have := Fp.rnd_exact 0 0 (by norm_num) (by norm_num)
  simpa using this

/-- The closer of two words that is not the more frequent one contributes no less. -/
theorem contribution_better {W : IndexWeights} {H : MatcherHistory} {f w w' : Word} {v v' : Int} (hv : 0 ≤ v) (hle : v ≤ v')
    (hc : H.count f w ≤ H.count f w') (hw : 0 ≤ IndexWeights.getWeight W f) :
    contribution W H f w' v' ≤ contribution W H f w v := by
  refine le_trans (contribution_antitone hv hle hw) ?_
  have d1 := denominator (v := v) hv
  have d3 : (1 : ℚ) ≤ ofInt ((H.maxCount f : Int) + 1) := ofInt_one_le (by omega)
  have a0 : 0 ≤ Fp.rnd (100 / fadd 100 (ofInt v)) := rnd_nonneg (by apply div_nonneg <;> linarith)
  have n : ofInt (H.count f w : Int) ≤ ofInt (H.count f w' : Int) := Fp.rnd_mono _ _ (by exact_mod_cast hc)
  have b : Fp.rnd (ofInt (H.count f w : Int) / ofInt ((H.maxCount f : Int) + 1)) ≤
      Fp.rnd (ofInt (H.count f w' : Int) / ofInt ((H.maxCount f : Int) + 1)) :=
    Fp.rnd_mono _ _ (div_le_div_of_nonneg_right n (by linarith))
  have c : fsub 1 (Fp.rnd (ofInt (H.count f w' : Int) / ofInt ((H.maxCount f : Int) + 1))) ≤
      fsub 1 (Fp.rnd (ofInt (H.count f w : Int) / ofInt ((H.maxCount f : Int) + 1))) := Fp.rnd_mono _ _ (by linarith)
  exact Fp.rnd_mono _ _ (mul_le_mul_of_nonneg_right (Fp.rnd_mono _ _ (mul_le_mul_of_nonneg_left c a0)) hw)

end

/-- Of two lists in the same strict order, one with fewer members is a part of the other. -/
theorem sublist_of_sorted {α : Type} {B : α → α → Prop} (irr : ∀ x, ¬ B x x) (asy : ∀ x y, B x y → B y x → False) :
    ∀ {L L' : List α}, L.Pairwise B → L'.Pairwise B → (∀ x ∈ L, x ∈ L') → L.Sublist L' := by
  intro L L'
  induction L' generalizing L with
  | nil =>
    intro _ _ h
    cases L with
    | nil => exact .slnil
    | cons x L => exact absurd (h x (by simp)) (by simp)
  | cons y L' ih =>
    intro hL hL' h
    rw [List.pairwise_cons] at hL'
    cases L with
    | nil => exact List.nil_sublist _
    | cons x L =>
      rw [List.pairwise_cons] at hL
      rcases List.mem_cons.1 (h x (by simp)) with e | hx
      · subst e
        refine .cons_cons _ (ih hL.2 hL'.2 ?_)
        intro z hz
        rcases List.mem_cons.1 (h z (by simp [hz])) with e | hz'
        · subst e; exact absurd (hL.1 _ hz) (irr _)
        · exact hz'
      · refine .cons _ (ih (List.pairwise_cons.2 hL) hL'.2 ?_)
        intro z hz
        rcases List.mem_cons.1 (h z hz) with e | hz'
        · subst e
          rcases List.mem_cons.1 hz with e | hz
          · subst e; exact hx
          · exact (asy _ _ (hL.1 _ hz) (hL'.1 _ hx)).elim
        · exact hz'

end Columbus
