import Verif.Proofs.Objects
/-
Objects with a private part behave like values.
-/

namespace Columbus
open Spec

section
variable {V R : Type}

/-- What an object's pointer stands for. -/
def Points (m : Memory V) (p : Option Nat) (c : Option V) : Prop :=
  match c with
  | none => p = none
  | some v => ∃ a, p = some a ∧ m.cells[a]? = some (some v)

/-- The memory agrees with the values. -/
structure PimplsRep (m : Memory V) (b : Vars (Option Nat)) (σ : PimplValues V) : Prop where
  dead : ∀ x, σ x = none → b x = none
  alive : ∀ x c, σ x = some c → ∃ p, b x = some p ∧ Points m p c
  apart : ∀ x y a, b x = some (some a) → b y = some (some a) → x = y
  owned : ∀ a, m.Live a → ∃ x, b x = some (some a)

theorem PimplsRep.live {m : Memory V} {b : Vars (Option Nat)} {σ : PimplValues V} (h : PimplsRep m b σ) {x : Nat} {a : Nat}
    (hb : b x = some (some a)) : ∃ v, σ x = some (some v) ∧ m.cells[a]? = some (some v) := by
  cases hx : σ x with
  | none => rw [h.dead x hx] at hb; cases hb
  | some c =>
    obtain ⟨p, hp, hc⟩ := h.alive x c hx
    rw [hb] at hp; injection hp with hp; subst hp
    cases c with
    | none => cases hc
    | some v =>
      obtain ⟨a', e, hc⟩ := hc
      injection e with e; subst e
      exact ⟨v, rfl, hc⟩

/-- Pointers keep their meaning when other cells change. -/
theorem Points.keep {m m' : Memory V} {p : Option Nat} {c : Option V} (h : Points m p c)
    (hk : ∀ a v, p = some a → m.cells[a]? = some (some v) → m'.cells[a]? = some (some v)) : Points m' p c := by
  cases c with
  | none => exact h
  | some v => obtain ⟨a, e, hc⟩ := h; exact ⟨a, e, hk a v e hc⟩

theorem PimplsRep.start : PimplsRep (V := V) (Pimpls.start (V := V)).mem (Pimpls.start (V := V)).objs (fun _ => none) :=
  ⟨fun _ _ => rfl, by simp, by simp [Pimpls.start], by rintro a ⟨v, hv⟩; simp [Pimpls.start] at hv⟩

/-- Emptying a variable, after freeing what its object held. -/
theorem PimplsRep.drop {m : Memory V} {b : Vars (Option Nat)} {σ : PimplValues V} (h : PimplsRep m b σ) {x : Nat} {p : Option Nat}
    (hb : b x = some p) : ∃ m', m.free p = .ok m' ∧ PimplsRep m' (b.set x none) (σ.set x none) := by
  have other : ∀ {m'} (hk : ∀ a v, a ∉ p → m.cells[a]? = some (some v) → m'.cells[a]? = some (some v))
      (hk' : ∀ a, m'.Live a → m.Live a ∧ a ∉ p), PimplsRep m' (b.set x none) (σ.set x none) := by
    intro m' hk hk'
    refine ⟨?_, ?_, ?_, ?_⟩
    · intro y hy
      by_cases e : y = x
      · subst e; exact Vars.set_self _ _ _
      · rw [Vars.set_other _ _ e] at hy ⊢; exact h.dead y hy
    · intro y c hy
      by_cases e : y = x
      · subst e; rw [Vars.set_self] at hy; cases hy
      · rw [Vars.set_other _ _ e] at hy
        obtain ⟨q, h1, h2⟩ := h.alive y c hy
        refine ⟨q, by rw [Vars.set_other _ _ e]; exact h1, h2.keep ?_⟩
        rintro a v rfl hv
        refine hk a v ?_ hv
        rintro rfl
        exact e (h.apart y x a h1 hb)
    · intro y z a h1 h2
      by_cases e : y = x
      · subst e; rw [Vars.set_self] at h1; cases h1
      by_cases e' : z = x
      · subst e'; rw [Vars.set_self] at h2; cases h2
      rw [Vars.set_other _ _ e] at h1
      rw [Vars.set_other _ _ e'] at h2
      exact h.apart y z a h1 h2
    · intro a ha
      obtain ⟨h1, h2⟩ := hk' a ha
      obtain ⟨y, hy⟩ := h.owned a h1
      have e : y ≠ x := by rintro rfl; rw [hb] at hy; injection hy with hy; subst hy; exact h2 rfl
      exact ⟨y, by rw [Vars.set_other _ _ e]; exact hy⟩
  cases p with
  | none => exact ⟨m, rfl, other (fun a v _ hv => hv) (fun a ha => ⟨ha, by simp⟩)⟩
  | some a =>
    obtain ⟨v, _, hv⟩ := h.live hb
    refine ⟨_, Memory.free_of hv, other ?_ ?_⟩
    · intro a' v' hne hv'
      exact live_set_none.2 ⟨fun e => hne (by simp [e]), hv'⟩
    · rintro a' ⟨v', hv'⟩
      obtain ⟨hne, hv'⟩ := live_set_none.1 hv'
      exact ⟨⟨v', hv'⟩, by simpa using Ne.symm hne⟩

/-- A new object. -/
theorem PimplsRep.fill {m : Memory V} {b : Vars (Option Nat)} {σ : PimplValues V} (h : PimplsRep m b σ) {x : Nat} (hx : σ x = none)
    (v : V) (n : Nat) :
    PimplsRep ⟨m.cells ++ [some v], n⟩ (b.set x (some (some m.cells.length))) (σ.set x (some (some v))) := by
  have fresh : ∀ y, b y ≠ some (some m.cells.length) := by
    intro y hy
    obtain ⟨_, _, hv⟩ := h.live hy
    exact absurd (cells_lt hv) (by omega)
  refine ⟨?_, ?_, ?_, ?_⟩
  · intro y hy
    by_cases e : y = x
    · subst e; rw [Vars.set_self] at hy; cases hy
    · rw [Vars.set_other _ _ e] at hy ⊢; exact h.dead y hy
  · intro y c hy
    by_cases e : y = x
    · subst e; rw [Vars.set_self] at hy; injection hy with hy; subst hy
      exact ⟨_, Vars.set_self _ _ _, _, rfl, live_append.2 (Or.inr ⟨rfl, rfl⟩)⟩
    · rw [Vars.set_other _ _ e] at hy
      obtain ⟨q, h1, h2⟩ := h.alive y c hy
      exact ⟨q, by rw [Vars.set_other _ _ e]; exact h1, h2.keep fun a w _ hw => live_append.2 (Or.inl hw)⟩
  · intro y z a h1 h2
    by_cases e : y = x
    · subst e
      by_cases e' : z = y
      · exact e'.symm
      · rw [Vars.set_self] at h1; injection h1 with h1; injection h1 with h1; subst h1
        rw [Vars.set_other _ _ e'] at h2
        exact absurd h2 (fresh z)
    · rw [Vars.set_other _ _ e] at h1
      by_cases e' : z = x
      · subst e'
        rw [Vars.set_self] at h2; injection h2 with h2; injection h2 with h2; subst h2
        exact absurd h1 (fresh y)
      · rw [Vars.set_other _ _ e'] at h2
        exact h.apart y z a h1 h2
  · rintro a ⟨w, hw⟩
    rcases live_append.1 hw with hw | ⟨rfl, _⟩
    · obtain ⟨y, hy⟩ := h.owned a ⟨w, hw⟩
      have e : y ≠ x := by rintro rfl; rw [h.dead y hx] at hy; cases hy
      exact ⟨y, by rw [Vars.set_other _ _ e]; exact hy⟩
    · exact ⟨x, Vars.set_self _ _ _⟩

/-- New contents for an object. -/
theorem PimplsRep.write {m : Memory V} {b : Vars (Option Nat)} {σ : PimplValues V} (h : PimplsRep m b σ) {x a : Nat}
    (hb : b x = some (some a)) (w : V) :
    ∃ m', m.store (some a) w = .ok m' ∧ PimplsRep m' b (σ.set x (some (some w))) := by
  obtain ⟨v, hx, hv⟩ := h.live hb
  refine ⟨_, Memory.store_of hv w, ?_, ?_, h.apart, ?_⟩
  · intro y hy
    by_cases e : y = x
    · subst e; rw [Vars.set_self] at hy; cases hy
    · rw [Vars.set_other _ _ e] at hy; exact h.dead y hy
  · intro y c hy
    by_cases e : y = x
    · subst e; rw [Vars.set_self] at hy; injection hy with hy; subst hy
      exact ⟨_, hb, a, rfl, by simp [cells_lt hv]⟩
    · rw [Vars.set_other _ _ e] at hy
      obtain ⟨q, h1, h2⟩ := h.alive y c hy
      refine ⟨q, h1, h2.keep ?_⟩
      rintro a' v' rfl hv'
      refine cells_set hv' ?_
      rintro rfl
      exact e (h.apart y x _ h1 hb)
  · rintro a' ⟨v', hv'⟩
    by_cases e : a' = a
    · subst e; exact ⟨x, hb⟩
    · refine h.owned a' ⟨v', ?_⟩
      dsimp only at hv'
      rw [List.getElem?_set_ne (Ne.symm e)] at hv'
      exact hv'

/-- An object moves to an unused variable. -/
theorem PimplsRep.moved {m : Memory V} {b : Vars (Option Nat)} {σ : PimplValues V} (h : PimplsRep m b σ) {x y : Nat} (hx : σ x = none)
    {c : Option V} {p : Option Nat} (hy : σ y = some c) (hb : b y = some p) :
    PimplsRep m ((b.set x (some p)).set y (some none)) ((σ.set x (some c)).set y (some none)) := by
  have hd := h.dead x hx
  have hxy : x ≠ y := by rintro rfl; rw [hx] at hy; cases hy
  have hp : Points m p c := by
    obtain ⟨q, h1, h2⟩ := h.alive y c hy
    rw [hb] at h1; injection h1 with h1; subst h1; exact h2
  have hobj : ∀ z, ((b.set x (some p)).set y (some none)) z =
      if z = y then some none else if z = x then some p else b z := by intro z; rfl
  have hval : ∀ z, ((σ.set x (some c)).set y (some none)) z = if z = y then some none else if z = x then some c else σ z := by
    intro z; rfl
  have origin : ∀ z a, ((b.set x (some p)).set y (some none)) z = some (some a) →
      (z = x ∧ p = some a) ∨ (z ≠ x ∧ z ≠ y ∧ b z = some (some a)) := by
    intro z a h1
    rw [hobj] at h1
    split at h1
    · injection h1 with h1; cases h1
    · split at h1
      · injection h1 with h1; left; exact ⟨‹_›, h1⟩
      · right; exact ⟨‹_›, ‹_›, h1⟩
  refine ⟨?_, ?_, ?_, ?_⟩
  · intro z hz
    rw [hval] at hz; rw [hobj]
    split at hz
    · cases hz
    · split at hz
      · cases hz
      · rw [if_neg ‹_›, if_neg ‹_›]; exact h.dead z hz
  · intro z v hz
    rw [hval] at hz; rw [hobj]
    split at hz
    · injection hz with hz; subst hz; rw [if_pos ‹_›]; exact ⟨_, rfl, rfl⟩
    · split at hz
      · injection hz with hz; subst hz; rw [if_neg ‹_›, if_pos ‹_›]; exact ⟨_, rfl, hp⟩
      · rw [if_neg ‹_›, if_neg ‹_›]; exact h.alive z v hz
  · intro z z' a h1 h2
    rcases origin z a h1 with ⟨e1, rfl⟩ | ⟨e1, e2, e3⟩ <;> rcases origin z' a h2 with ⟨e1', e2'⟩ | ⟨e1', e2', e3'⟩
    · rw [e1, e1']
    · exact absurd (h.apart y z' a hb e3') (Ne.symm e2')
    · rw [e2'] at hb; exact absurd (h.apart z y a e3 hb) e2
    · exact h.apart z z' a e3 e3'
  · intro a ha
    obtain ⟨z, hz⟩ := h.owned a ha
    by_cases e : z = y
    · subst e
      rw [hb] at hz; injection hz with hz; subst hz
      exact ⟨x, by rw [hobj, if_neg hxy, if_pos rfl]⟩
    · have e' : z ≠ x := by rintro rfl; rw [hd] at hz; cases hz
      exact ⟨z, by rw [hobj, if_neg e, if_neg e']; exact hz⟩

theorem Pimpls.obj_of {mem : Memory V} {objs : Vars (Option Nat)} {x : Nat} {p : Option Nat} (h : objs x = some p) :
    Pimpls.obj ⟨mem, objs⟩ x = .ok p := by
  simp [Pimpls.obj, h]

/-- Every valid step of the code is one with values. -/
theorem pimpls_step {s : Pimpls V} {σ : PimplValues V} (h : PimplsRep s.mem s.objs σ) {op : PimplOp V R} (hv : op.Valid σ) :
    ∃ s' r σ', s.run op = .ok (s', r) ∧ PimplStep σ op r σ' ∧ PimplsRep s'.mem s'.objs σ' := by
  obtain ⟨mem, objs⟩ := s
  dsimp only at h
  have live : ∀ {x}, σ x ≠ none → ∃ c p, σ x = some c ∧ objs x = some p := by
    intro x hx
    obtain ⟨c, hc⟩ := Option.ne_none_iff_exists'.1 hx
    obtain ⟨p, h1, _⟩ := h.alive x c hc
    exact ⟨c, p, hc, h1⟩
  have full : ∀ {x}, (∃ v, σ x = some (some v)) → ∃ v a, σ x = some (some v) ∧ objs x = some (some a) ∧ mem.load (some a) = .ok v := by
    rintro x ⟨v, hx⟩
    obtain ⟨p, h1, a, rfl, h2⟩ := h.alive x (some v) hx
    exact ⟨v, a, hx, h1, Memory.load_of h2⟩
  cases op with
  | make x v =>
    exact ⟨⟨_, _⟩, none, _, by simp only [Pimpls.run, Memory.alloc, if_true]; rfl, .make, h.fill hv v _⟩
  | copy x y =>
    obtain ⟨v, a, h1, h2, h3⟩ := full hv.2
    exact ⟨⟨_, _⟩, none, _, by simp only [Pimpls.run, Pimpls.obj_of h2, ok_bind, h3, Memory.alloc, if_true]; rfl, .copy h1, h.fill hv.1 v _⟩
  | move x y =>
    obtain ⟨c, p, h1, h2⟩ := live hv.2
    exact ⟨⟨_, _⟩, none, _, by simp only [Pimpls.run, Pimpls.obj_of h2, ok_bind]; rfl, .move h1, h.moved hv.1 h1 h2⟩
  | assign x y =>
    by_cases hxy : x = y
    · subst hxy
      obtain ⟨c, p, h1, h2⟩ := live hv.1
      refine ⟨⟨mem, objs⟩, none, σ, by simp only [Pimpls.run, Pimpls.obj_of h2, ok_bind, if_true], ?_, h⟩
      have := PimplStep.assign (R := R) (x := x) h1
      rwa [Vars.set_eq _ _ _ h1] at this
    · have hv' := hv.2.resolve_left hxy
      obtain ⟨v, a, h1, h2, h3⟩ := full hv'.1
      obtain ⟨v', a', h1', h2', h3'⟩ := full hv'.2
      obtain ⟨m, e, hm⟩ := h.write h2 v'
      exact ⟨⟨_, _⟩, none, _, by simp only [Pimpls.run, Pimpls.obj_of h2, Pimpls.obj_of h2', ok_bind, if_neg hxy, h3', e], .assign h1', hm⟩
  | assignMove x y =>
    by_cases hxy : x = y
    · subst hxy
      obtain ⟨c, p, h1, h2⟩ := live hv.1
      exact ⟨⟨mem, objs⟩, none, σ, by simp only [Pimpls.run, Pimpls.obj_of h2, ok_bind, if_true], .assignSelf, h⟩
    · obtain ⟨c, p, h1, h2⟩ := live hv.1
      obtain ⟨c', p', h1', h2'⟩ := live hv.2
      obtain ⟨m, e, hm⟩ := h.drop h2
      refine ⟨⟨_, _⟩, none, _, by simp only [Pimpls.run, Pimpls.obj_of h2, Pimpls.obj_of h2', ok_bind, if_neg hxy, e]; rfl, .assignMove hxy h1', ?_⟩
      have := hm.moved (x := x) (y := y) (c := c') (p := p') (Vars.set_self _ _ _)
        (by rw [Vars.set_other _ _ (Ne.symm hxy)]; exact h1') (by rw [Vars.set_other _ _ (Ne.symm hxy)]; exact h2')
      rwa [Vars.set_set, Vars.set_set] at this
  | destroy x =>
    obtain ⟨c, p, h1, h2⟩ := live hv
    obtain ⟨m, e, hm⟩ := h.drop h2
    exact ⟨⟨_, _⟩, none, _, by simp only [Pimpls.run, Pimpls.obj_of h2, ok_bind, e]; rfl, .destroy, hm⟩
  | call x f =>
    obtain ⟨v, a, h1, h2, h3⟩ := full hv
    obtain ⟨m, e, hm⟩ := h.write h2 (f v).1
    exact ⟨⟨_, _⟩, some (f v).2, _, by simp only [Pimpls.run, Pimpls.obj_of h2, ok_bind, h3, e], .call h1, hm⟩
  | callWith x y al f =>
    obtain ⟨v, a, h1, h2, h3⟩ := full hv.1
    obtain ⟨v', a', h1', h2', h3'⟩ := full hv.2.1
    obtain ⟨m, e, hm⟩ := h.write h2 (f v v').1
    have hn : ¬ (x = y ∧ al = false) := by
      rintro ⟨e1, e2⟩
      rcases hv.2.2 with e3 | e3
      · exact e3 e1
      · rw [e2] at e3; cases e3
    exact ⟨⟨_, _⟩, some (f v v').2, _, by simp only [Pimpls.run, Pimpls.obj_of h2, Pimpls.obj_of h2', ok_bind, if_neg hn, h3, h3', e],
      .callWith h1 h1', hm⟩

/-- A step with values has one result. -/
theorem PimplStep.det {σ σ₁ σ₂ : PimplValues V} {op : PimplOp V R} {r₁ r₂ : Option R} (h₁ : PimplStep σ op r₁ σ₁)
    (h₂ : PimplStep σ op r₂ σ₂) : r₁ = r₂ ∧ σ₁ = σ₂ := by
  cases h₁ <;> cases h₂ <;> simp_all

theorem PimplsRan.rep {allowed : PimplOp V R → Prop} {step : Pimpls V → PimplOp V R → M (Pimpls V × Option R)}
    (hstep : ∀ s op, allowed op → step s op = s.run op) {s : Pimpls V} {σ : PimplValues V} (h : PimplsRan step allowed s σ) :
    PimplsRep s.mem s.objs σ := by
  induction h with
  | start => exact .start
  | @step s σ op r s' σ' _ hv ha e hs ih =>
    obtain ⟨s1, r1, σ1, e1, hs1, h1⟩ := pimpls_step ih hv
    rw [hstep _ _ ha, e1] at e
    injection e with e; injection e with e _; subst e
    rw [(Columbus.PimplStep.det hs hs1).2]
    exact h1

theorem runShallow_noCopy (s : Pimpls V) (op : PimplOp V R) (h : op.NoCopy) : s.runShallow op = s.run op := by
  cases op <;> first | rfl | exact absurd h id

end
end Columbus
