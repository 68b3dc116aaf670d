import Mathlib.Data.List.Induction
import Verif.Proofs.ErrorCosts
import Verif.Props.Example
/-
C29-C38: substitution costs.
-/

namespace Columbus.Props
open Columbus Spec ErrorValues

/-! ### C29 -/

/-- C29. After any history of calls every pair has a cost and it is the same in both orders. -/
theorem C29_symmetric [Build] [Icu] (ops : List ErrOp) (a b : Letter) :
    ∃ v, (afterOps ops).getSubstituteError a b = .ok v ∧ (afterOps ops).getSubstituteError b a = .ok v := by
  obtain ⟨h, hi, _⟩ := afterOps_inv ops
  exact ⟨_, hi.cost a b, by rw [hi.cost b a, cost_comm]⟩

/-- Histories reach costs other than 0 and 100. -/
example : (@afterOps Example.debug Example.icu [.setError 0x61 0x62 7, .setGroupError [0x3b1, 0x3ac] 30]).getSubstituteError
    0x3ac 0x3b1 = .ok 30 := by rfl

/-! ### C30 -/

/-- C30 is false: `setError` accepts equal letters, and below 512 the lookup table then charges for a match. -/
theorem C30_false [Build] [Icu] : (afterOps [.setError 0x61 0x61 7]).getSubstituteError 0x61 0x61 = .ok 7 := by rfl

/-- C30, what holds: equal letters cost nothing if no `setError` call names a letter twice with a non-zero value; above
the table always. Missing from the full claim: histories with such calls. -/
theorem C30_partial [Build] [Icu] (ops : List ErrOp) (a : Letter)
    (h : 512 ≤ a.toNat ∨ ∀ v, ErrOp.setError a a v ∈ ops → v = 0) :
    (afterOps ops).getSubstituteError a a = .ok 0 := by
  obtain ⟨hist, hi, hm⟩ := afterOps_inv ops
  rw [hi.cost a a, cost]
  split
  · rename_i hl
    congr 1
    have h := h.resolve_left (by omega)
    clear hi
    induction hist with
    | nil => simp [tableCost]
    | cons ev hist ih =>
      have ih := ih fun e he => hm e (by simp [he])
      cases ev with
      | clear => simp [tableCost]
      | group g v => rw [tableCost, if_neg (by simp), ih]
      | single x y v =>
        rw [tableCost, ih]
        split
        · rename_i hp
          have hxy : x = a ∧ y = a := by
            rcases samePair_iff.1 hp with ⟨h1, h2⟩ | ⟨h1, h2⟩
            · exact ⟨h1.symm, h2.symm⟩
            · exact ⟨h2.symm, h1.symm⟩
          obtain ⟨rfl, rfl⟩ := hxy
          obtain ⟨op, ho, hmk⟩ := hm (.single y y v) (by simp)
          have kk : (keyPairs.any fun p => p.1 == p.2) = false := by decide +kernel
          have kp : (allPadPairs.any fun p => p.1 == p.2.1) = false := by decide +kernel
          cases op <;> simp only [Makes] at hmk
          · obtain ⟨rfl, rfl, rfl⟩ := Ev.single.inj hmk
            exact h v ho
          · cases hmk
          · cases hmk
          · obtain ⟨_, _, hc⟩ := hmk; cases hc
          · obtain ⟨p, q, hpq, hc⟩ := hmk
            obtain ⟨rfl, rfl, rfl⟩ := Ev.single.inj hc
            have := List.any_eq_false.1 kk _ hpq
            simp at this
          · obtain ⟨p, q, w, hpq, hc⟩ := hmk
            obtain ⟨rfl, rfl, rfl⟩ := Ev.single.inj hc
            have := List.any_eq_false.1 kp _ hpq
            simp at this
          · rcases hmk with ⟨_, _, _, hc⟩ | ⟨p, q, hpq, hc⟩
            · cases hc
            · obtain ⟨rfl, rfl, rfl⟩ := Ev.single.inj hc
              have := List.any_eq_false.1 kk _ hpq
              simp at this
        · rfl
  · rw [mapCost, if_pos rfl]

/-! ### C31 -/

/-- A call whose pair is not touched leaves its cost alone. -/
theorem makes_touches [Build] [Icu] {op : ErrOp} {ev : Ev} {a b : Letter} (hm : Makes op ev) (ht : ev.Touches a b) :
    op.Touches a b := by
  have kp : (allPadPairs.all fun p => padButtons.any fun q => padButtons.any fun q' =>
      q.2.2.1 == p.1 && q'.2.2.2.contains p.2.1 &&
      ((q.1 == q'.1 && q.2.1 == q'.2.1 && q.2.2.2.contains p.2.1) ||
       (q.1 == q'.1 && (q.2.1 == q'.2.1 + 1 || q'.2.1 == q.2.1 + 1)) ||
       (q.2.1 == q'.2.1 && (q.1 == q'.1 + 1 || q'.1 == q.1 + 1)))) = true := by decide +kernel
  have kp' : ∀ x y v, (x, y, v) ∈ allPadPairs → OnButton x y ∨ NextToButton x y := by
    intro x y v hx
    have := List.all_eq_true.1 kp _ hx
    obtain ⟨⟨r, c, d, ls⟩, hq, this⟩ := List.any_eq_true.1 this
    obtain ⟨⟨r', c', d', ls'⟩, hq', this⟩ := List.any_eq_true.1 this
    simp only [Bool.and_eq_true, Bool.or_eq_true, beq_iff_eq, List.contains_iff_mem] at this
    obtain ⟨⟨h1, h2⟩, h3⟩ := this
    subst h1
    rcases h3 with (h3 | h3) | h3
    · left; exact ⟨r, c, ls, hq, h3.2⟩
    · right; exact ⟨r, c, ls, r', c', d', ls', hq, hq', h2, Or.inl h3⟩
    · right; exact ⟨r, c, ls, r', c', d', ls', hq, hq', h2, Or.inr h3⟩
  have key : ∀ x y, samePair a b x y = true → (x, y) ∈ keyPairs → KeyNeighbours a b := by
    intro x y hp hk
    rcases samePair_iff.1 hp with ⟨rfl, rfl⟩ | ⟨rfl, rfl⟩
    · exact Or.inl hk
    · exact Or.inr hk
  cases op <;> simp only [Makes] at hm
  case setError => subst hm; exact samePair_iff.1 ht
  case setGroupError => subst hm; exact ht
  case clearErrors => trivial
  case addAccents =>
    obtain ⟨g, hg, rfl⟩ := hm
    exact ⟨g, hg, ht⟩
  case addKeyboardErrors =>
    obtain ⟨x, y, hk, rfl⟩ := hm
    exact key x y ht hk
  case addNumberpadErrors =>
    obtain ⟨x, y, v, hk, rfl⟩ := hm
    have := kp' x y v hk
    rcases samePair_iff.1 ht with ⟨rfl, rfl⟩ | ⟨rfl, rfl⟩
    · exact Or.inl this
    · exact Or.inr this
  case addStandardErrors =>
    rcases hm with ⟨gr, g, hg, rfl⟩ | ⟨x, y, hk, rfl⟩
    · exact Or.inr ⟨gr, g, hg, ht⟩
    · exact Or.inl (key x y ht hk)

theorem afterOps_append [Build] [Icu] (ops more : List ErrOp) :
    afterOps (ops ++ more) = more.foldl (fun e op => (op.run e).1) (afterOps ops) := by
  rw [afterOps, List.foldl_append]; rfl

/-- C31. From `setError(a,b,v)` on, whatever came before, the pair costs `v` in both orders, until a call names the pair
individually, in a group or in a layout, or clears the errors. -/
theorem C31_last_wins [Build] [Icu] (ops later : List ErrOp) (a b : Letter) (v : Int) (hne : a ≠ b)
    (hl : ∀ op ∈ later, ¬ op.Touches a b) :
    (afterOps (ops ++ .setError a b v :: later)).getSubstituteError a b = .ok v ∧
    (afterOps (ops ++ .setError a b v :: later)).getSubstituteError b a = .ok v := by
  obtain ⟨h, hi, _⟩ := afterOps_inv ops
  obtain ⟨e1, h1, hi1, _⟩ := hi.setError a b v
  obtain ⟨evs, hi2, hm⟩ := ops_inv later hi1
  have e2 : afterOps (ops ++ .setError a b v :: later) = later.foldl (fun e op => (op.run e).1) e1 := by
    rw [afterOps_append, List.foldl_cons, ErrOp.run, h1]; rfl
  have hc : cost (evs ++ .single a b v :: h) a b = v := by
    rw [cost_untouched_list]
    · exact cost_single_hit h v (samePair_iff.2 (Or.inl ⟨rfl, rfl⟩)) hne
    · intro ev hev ht
      obtain ⟨op, ho, hmk⟩ := hm ev hev
      exact hl op ho (makes_touches hmk ht)
  rw [e2, hi2.cost a b, hi2.cost b a, cost_comm _ a b, hc]
  exact ⟨rfl, rfl⟩

/-- C31. Any call leaves the cost of the pairs that it does not name as it was; in particular `setError` of every other
pair. -/
theorem C31_others_keep [Build] [Icu] (ops : List ErrOp) (op : ErrOp) (a b : Letter) (hn : ¬ op.Touches a b) :
    (afterOps (ops ++ [op])).getSubstituteError a b = (afterOps ops).getSubstituteError a b := by
  obtain ⟨h, hi, _⟩ := afterOps_inv ops
  obtain ⟨evs, hi2, hm⟩ := run_inv op hi
  have e2 : afterOps (ops ++ [op]) = (op.run (afterOps ops)).1 := by rw [afterOps_append]; rfl
  rw [e2, hi2.cost a b, hi.cost a b, cost_untouched_list]
  intro ev hev ht
  exact hn (makes_touches (hm ev hev) ht)

/-- A later group call that names only one of the two letters does not touch the pair. -/
example : (@afterOps Example.debug Example.icu [.setError 0x61 0x62 7, .setGroupError [0x61, 0xe1] 30]).getSubstituteError
    0x62 0x61 = .ok 7 := by rfl

example : ¬ @ErrOp.Touches Example.debug Example.icu 0x61 0x62 (.setGroupError [0x61, 0xe1] 30) := by
  simp only [ErrOp.Touches]; decide

/-! ### C32 -/

/-- C32 is false: a group set after a single error overrides it below the table limit, not above. -/
theorem C32_false [Build] [Icu] :
    (afterOps [.setError 0x61 0x62 5, .setGroupError [0x61, 0x62] 30]).getSubstituteError 0x61 0x62 = .ok 30 ∧
    (afterOps [.setError 0x61 0x62 5, .setGroupError [0x61, 0x62] 30]).substituteErrorSlow 0x61 0x62 = .ok 5 ∧
    (afterOps [.setError 0x3b1 0x3b2 5, .setGroupError [0x3b1, 0x3b2] 30]).getSubstituteError 0x3b1 0x3b2 = .ok 5 :=
  ⟨rfl, rfl, rfl⟩

/-- The pair was set individually since the last `clearErrors`. -/
def SetSingly (ops : List ErrOp) (a b : Letter) : Prop :=
  ∃ p op q, ops = p ++ op :: q ∧ op.NamesPair a b ∧ ErrOp.clearErrors ∉ q

/-- The groups that a call sets. -/
def SetsGroup [Build] [Icu] (g : Word) : ErrOp → Prop
  | .setGroupError g' _ => g = g'
  | .addAccents d greek => IsAccentGroup d greek g
  | .addStandardErrors d => ∃ greek, IsAccentGroup d greek g
  | _ => False

theorem makes_names [Build] [Icu] {op : ErrOp} {x y a b : Letter} {v : Int} (hm : Makes op (.single x y v))
    (hp : samePair a b x y = true) : op.NamesPair a b := by
  have ht := makes_touches hm (ev := .single x y v) (a := a) (b := b) hp
  cases op <;> simp only [Makes] at hm <;> try exact ht
  · cases hm
  · cases hm
  · obtain ⟨_, _, hc⟩ := hm; cases hc
  · rcases hm with ⟨_, _, _, hc⟩ | ⟨p, q, hpq, hc⟩
    · cases hc
    · obtain ⟨rfl, rfl, rfl⟩ := Ev.single.inj hc
      rcases samePair_iff.1 hp with ⟨rfl, rfl⟩ | ⟨rfl, rfl⟩
      · exact Or.inl hpq
      · exact Or.inr hpq

theorem singleCost_append {evs h : List Ev} {a b : Letter} (hn : singleCost (evs ++ h) a b ≠ none) :
    (∃ x y v, Ev.single x y v ∈ evs ∧ samePair a b x y = true) ∨ (singleCost h a b ≠ none ∧ Ev.clear ∉ evs) := by
  induction evs with
  | nil => right; exact ⟨hn, by simp⟩
  | cons ev evs ih =>
    cases ev with
    | clear => exact absurd rfl hn
    | group g v =>
      rcases ih hn with ⟨x, y, w, h1, h2⟩ | ⟨h1, h2⟩
      · exact Or.inl ⟨x, y, w, by simp [h1], h2⟩
      · exact Or.inr ⟨h1, by simp [h2]⟩
    | single x y v =>
      rw [List.cons_append, singleCost] at hn
      split at hn
      · rename_i hp; exact Or.inl ⟨x, y, v, by simp, hp⟩
      · rcases ih hn with ⟨x, y, w, h1, h2⟩ | ⟨h1, h2⟩
        · exact Or.inl ⟨x, y, w, by simp [h1], h2⟩
        · exact Or.inr ⟨h1, by simp [h2]⟩

theorem setSingly_snoc {ops : List ErrOp} {op : ErrOp} {a b : Letter} (h : SetSingly ops a b) (hne : op ≠ .clearErrors) :
    SetSingly (ops ++ [op]) a b := by
  obtain ⟨p, o, q, rfl, h1, h2⟩ := h
  refine ⟨p, o, q ++ [op], by simp, h1, ?_⟩
  simp only [List.mem_append, List.mem_singleton, not_or]
  exact ⟨h2, Ne.symm hne⟩

theorem accentLoop_clean [Build] [Icu] : ∀ (ls : List Bytes) {e : ErrorValues} {h : List Ev}, EInv e h → Clean h →
    (accentLoop e ls).2 = none → (∀ l ∈ ls, ∀ g, Word.ofUtf8 l = .ok g → ∀ a ∈ g, ∀ b ∈ g, a ≠ b → singleCost h a b = none) →
    ∃ evs, EInv (accentLoop e ls).1 (evs ++ h) ∧ Clean (evs ++ h) ∧ (∀ a b, singleCost (evs ++ h) a b = singleCost h a b) := by
  intro ls
  induction ls with
  | nil => intro e h hi hc _ _; exact ⟨[], hi, hc, fun _ _ => rfl⟩
  | cons l ls ih =>
    intro e h hi hc hn hs
    rw [accentLoop] at hn ⊢
    cases hw : Word.ofUtf8 l with
    | error f => rw [hw] at hn; cases hn
    | ok g =>
      rw [hw] at hn
      simp only at hn ⊢
      split at hn
      · rename_i hz
        rw [if_pos hz]
        exact ih hi hc hn (fun l' hl' => hs l' (by simp [hl']))
      · rename_i hz
        rw [if_neg hz]
        obtain ⟨e1, k1, hi1, _⟩ := hi.setGroupError g DEFAULT_GROUP_ERROR
        rw [k1] at hn ⊢
        cases ha : accepted h g with
        | false => rw [ha] at hn; cases hn
        | true =>
          rw [ha] at hn
          simp only [if_true] at hn ⊢
          obtain ⟨evs, h1, h2, h3⟩ := ih hi1 ⟨ha, hs l (by simp) g hw, hc⟩ hn
            (fun l' hl' => hs l' (by simp [hl']))
          refine ⟨evs ++ [.group g DEFAULT_GROUP_ERROR], ?_, ?_, ?_⟩
          · rw [List.append_assoc]; exact h1
          · rw [List.append_assoc]; exact h2
          · intro a b; rw [List.append_assoc]; exact h3 a b

theorem singles_clean (l : List (Letter × Letter × Int)) (hl : ∀ p ∈ l, p.1 = p.2.1 → p.2.2 = 0) {h : List Ev} (hc : Clean h) :
    Clean (singles l ++ h) := by
  have : ∀ evs : List Ev, (∀ ev ∈ evs, ∃ x y v, ev = Ev.single x y v ∧ (x = y → v = 0)) → Clean (evs ++ h) := by
    intro evs
    induction evs with
    | nil => intro _; exact hc
    | cons ev evs ih =>
      intro hall
      obtain ⟨x, y, v, rfl, hv⟩ := hall ev (by simp)
      exact ⟨hv, ih fun e he => hall e (by simp [he])⟩
  apply this
  intro ev hev
  obtain ⟨a, b, v, h1, rfl⟩ := mem_singles hev
  exact ⟨a, b, v, rfl, hl _ h1⟩

theorem keyPairs_clean : ∀ p ∈ allKeyPairs, p.1 = p.2.1 → p.2.2 = 0 := by
  have kk : (allKeyPairs.any fun p => p.1 == p.2.1) = false := by decide +kernel
  intro p hp he
  have := List.any_eq_false.1 kk p hp
  simp [he] at this

theorem padPairs_clean : ∀ p ∈ allPadPairs, p.1 = p.2.1 → p.2.2 = 0 := by
  have kk : (allPadPairs.any fun p => p.1 == p.2.1) = false := by decide +kernel
  intro p hp he
  have := List.any_eq_false.1 kk p hp
  simp [he] at this

theorem addAccents_clean [Build] [Icu] {e : ErrorValues} {h : List Ev} (d : DataDir) (greek : Bool) (hi : EInv e h)
    (hc : Clean h) (hr : (addAccents d e greek).2 = none)
    (hs : ∀ g, IsAccentGroup d greek g → ∀ a ∈ g, ∀ b ∈ g, a ≠ b → singleCost h a b = none) :
    ∃ evs, EInv (addAccents d e greek).1 (evs ++ h) ∧ Clean (evs ++ h) ∧
      (∀ a b, singleCost (evs ++ h) a b = singleCost h a b) := by
  rw [addAccents] at hr ⊢
  cases hd : d greek with
  | none => rw [hd] at hr; cases hr
  | some lines =>
    rw [hd] at hr
    refine accentLoop_clean _ hi hc hr ?_
    intro l hl g hg
    obtain ⟨l', hl', rfl⟩ := List.mem_map.1 hl
    exact hs g ⟨lines, hd, l', hl', hg⟩

/-- A call that keeps the lookup table in step with the maps. -/
theorem run_clean [Build] [Icu] (op : ErrOp) {e : ErrorValues} {h : List Ev} (hi : EInv e h) (hc : Clean h)
    (hr : (op.run e).2 = none) (hset : ∀ a v, op = .setError a a v → v = 0)
    (hs : ∀ g, SetsGroup g op → ∀ a ∈ g, ∀ b ∈ g, a ≠ b → singleCost h a b = none) :
    ∃ evs, EInv (op.run e).1 (evs ++ h) ∧ Clean (evs ++ h) ∧
      (∀ a b, singleCost (evs ++ h) a b ≠ none → op.NamesPair a b ∨ (singleCost h a b ≠ none ∧ op ≠ .clearErrors)) := by
  cases op with
  | setError a b v =>
    obtain ⟨e', h1, h2, _⟩ := hi.setError a b v
    refine ⟨[.single a b v], by rw [ErrOp.run, h1]; exact h2, ⟨by rintro rfl; exact hset a v rfl, hc⟩, ?_⟩
    intro x y hn
    rcases singleCost_append hn with ⟨p, q, w, hm, hp⟩ | ⟨k, _⟩
    · rw [List.mem_singleton] at hm
      obtain ⟨rfl, rfl, rfl⟩ := Ev.single.inj hm
      exact Or.inl (samePair_iff.1 hp)
    · exact Or.inr ⟨k, by simp⟩
  | setGroupError g v =>
    obtain ⟨e', h1, h2, _⟩ := hi.setGroupError g v
    rw [ErrOp.run, h1] at hr ⊢
    cases ha : accepted h g with
    | false => rw [ha] at hr; cases hr
    | true =>
      refine ⟨[.group g v], h2, ⟨ha, hs g rfl, hc⟩, ?_⟩
      intro x y hn
      exact Or.inr ⟨hn, by simp⟩
  | clearErrors => exact ⟨[.clear], hi.clear, hc, fun a b hn => absurd rfl hn⟩
  | addAccents d greek =>
    obtain ⟨evs, h1, h2, h3⟩ := addAccents_clean d greek hi hc hr hs
    refine ⟨evs, h1, h2, ?_⟩
    intro a b hn
    rw [h3 a b] at hn
    exact Or.inr ⟨hn, by simp⟩
  | addKeyboardErrors =>
    obtain ⟨e', evs, h1, rfl, h2, _, h3⟩ := keyboard_inv hi
    rw [ErrOp.run, h1]
    refine ⟨_, h2, singles_clean _ keyPairs_clean hc, ?_⟩
    intro a b hn
    rcases singleCost_append hn with ⟨p, q, w, hm, hp⟩ | ⟨k, _⟩
    · exact Or.inl (makes_names (op := .addKeyboardErrors) (h3 _ hm) hp)
    · exact Or.inr ⟨k, by simp⟩
  | addNumberpadErrors =>
    obtain ⟨e', h1, h2, _⟩ := hi.setErrors allPadPairs
    rw [ErrOp.run, addNumberpadErrors_eq, h1]
    refine ⟨_, h2, singles_clean _ padPairs_clean hc, ?_⟩
    intro a b hn
    rcases singleCost_append hn with ⟨p, q, w, hm, hp⟩ | ⟨k, _⟩
    · exact Or.inl (makes_names (op := .addNumberpadErrors) (mem_singles hm) hp)
    · exact Or.inr ⟨k, by simp⟩
  | addStandardErrors d =>
    rw [ErrOp.run, addStandardErrors] at hr ⊢
    cases hA : addAccents d e false with
    | mk e1 o1 =>
      rw [hA] at hr
      cases o1 with
      | some f => cases hr
      | none =>
        simp only at hr ⊢
        obtain ⟨evs1, h1, h2, h3⟩ := addAccents_clean d false hi hc (by rw [hA]) (fun g hg => hs g ⟨false, hg⟩)
        rw [hA] at h1
        cases hB : addAccents d e1 true with
        | mk e2 o2 =>
          rw [hB] at hr
          cases o2 with
          | some f => cases hr
          | none =>
            simp only at hr ⊢
            obtain ⟨evs2, h1', h2', h3'⟩ := addAccents_clean d true h1 h2 (by simp only; rw [hB]) (by
              intro g hg a ha b hb hne
              rw [h3]; exact hs g ⟨true, hg⟩ a ha b hb hne)
            simp only at h1'
            rw [hB] at h1'
            obtain ⟨e', evs, k1, rfl, k2, _, k3⟩ := keyboard_inv h1'
            simp only at k1
            rw [k1]
            refine ⟨singles allKeyPairs ++ (evs2 ++ evs1), by rw [List.append_assoc, List.append_assoc]; exact k2, ?_, ?_⟩
            · rw [List.append_assoc, List.append_assoc]; exact singles_clean _ keyPairs_clean h2'
            · intro a b hn
              rw [List.append_assoc, List.append_assoc] at hn
              rcases singleCost_append hn with ⟨p, q, w, hm, hp⟩ | ⟨k, _⟩
              · left
                obtain ⟨x, y, hk, hc⟩ := k3 _ hm
                exact makes_names (op := .addStandardErrors d) (Or.inr ⟨x, y, hk, hc⟩) hp
              · rw [h3', h3] at k
                exact Or.inr ⟨k, by simp⟩
  | _ => exact ⟨[], ⟨hi.sub, hi.lut, hi.single, hi.errors, hi.map⟩, hc, fun a b hn => Or.inr ⟨hn, by simp⟩⟩

/-- C32, what holds: the table agrees with the maps for every pair if no call failed, no `setError` call gives a letter a
non-zero cost against itself, and no group was set over a pair that already had an individual error. Missing from the
full claim: the other histories. -/
theorem C32_partial [Build] [Icu] (ops : List ErrOp) (hset : ∀ a v, ErrOp.setError a a v ∈ ops → v = 0)
    (hgood : ∀ pre op post, ops = pre ++ op :: post → (op.run (afterOps pre)).2 = none ∧
      ∀ g, SetsGroup g op → ∀ a ∈ g, ∀ b ∈ g, a ≠ b → ¬ SetSingly pre a b) (a b : Letter) :
    (afterOps ops).getSubstituteError a b = (afterOps ops).substituteErrorSlow a b := by
  have : ∃ h, EInv (afterOps ops) h ∧ Clean h ∧ ∀ a b, singleCost h a b ≠ none → SetSingly ops a b := by
    induction ops using List.reverseRecOn with
    | nil => exact ⟨[], new_inv, trivial, fun _ _ h => absurd rfl h⟩
    | append_singleton ops op ih =>
      obtain ⟨h, hi, hc, hs⟩ := ih (fun a v hm => hset a v (by simp [hm])) (by
        intro pre o post he
        exact hgood pre o (post ++ [op]) (by rw [he]; simp))
      obtain ⟨h1, h2⟩ := hgood ops op [] rfl
      obtain ⟨evs, k1, k2, k3⟩ := run_clean op hi hc h1 (by rintro a v rfl; exact hset a v (by simp)) (by
        intro g hg a ha b hb hne
        by_contra hcon
        exact h2 g hg a ha b hb hne (hs a b hcon))
      refine ⟨evs ++ h, ?_, k2, ?_⟩
      · rw [afterOps_append]; exact k1
      · intro a b hn
        rcases k3 a b hn with k | ⟨k, hne⟩
        · exact ⟨ops, op, [], rfl, k, by simp⟩
        · exact setSingly_snoc (hs a b k) hne
  obtain ⟨h, hi, hc, _⟩ := this
  rw [hi.cost, hi.slow, cost]
  split
  · rw [hc.table]
  · rfl

/-- The condition can be met by a history with both kinds of calls. -/
example : (@afterOps Example.debug Example.icu [.setGroupError [0x61, 0xe1] 30, .setError 0x61 0xe1 5]).getSubstituteError
    0x61 0xe1 = .ok 5 ∧
    (@afterOps Example.debug Example.icu [.setGroupError [0x61, 0xe1] 30, .setError 0x61 0xe1 5]).substituteErrorSlow
    0x61 0xe1 = .ok 5 := ⟨rfl, rfl⟩

/-! ### C33 -/

/-- A pair not named individually since the last `clearErrors` has no individual cost. -/
theorem singleCost_none [Build] [Icu] (ops : List ErrOp) : ∃ h, EInv (afterOps ops) h ∧
    ∀ a b, singleCost h a b ≠ none → SetSingly ops a b := by
  induction ops using List.reverseRecOn with
  | nil => exact ⟨[], new_inv, fun _ _ h => absurd rfl h⟩
  | append_singleton ops op ih =>
    obtain ⟨h, hi, hs⟩ := ih
    by_cases hop : op = .clearErrors
    · subst hop
      exact ⟨.clear :: h, by rw [afterOps_append]; exact hi.clear, fun _ _ h => absurd rfl h⟩
    · obtain ⟨evs, k1, k2⟩ := run_inv op hi
      refine ⟨evs ++ h, by rw [afterOps_append]; exact k1, ?_⟩
      intro a b hn
      rcases singleCost_append hn with ⟨x, y, v, hm, hp⟩ | ⟨k, _⟩
      · exact ⟨ops, op, [], rfl, makes_names (k2 _ hm) hp, by simp⟩
      · exact setSingly_snoc (hs a b k) hop

/-- C33. After a group call that succeeds, two different letters of the group cost the value, unless they have an
individual error (which only matters above the table limit). -/
theorem C33_group_cost [Build] [Icu] (ops : List ErrOp) (g : Word) (v : Int)
    (hok : ((afterOps ops).setGroupError g v).2 = none) (a b : Letter) (ha : a ∈ g) (hb : b ∈ g) (hne : a ≠ b)
    (hs : (a.toNat < 512 ∧ b.toNat < 512) ∨ ¬ SetSingly ops a b) :
    (afterOps (ops ++ [.setGroupError g v])).getSubstituteError a b = .ok v := by
  obtain ⟨h, hi, hsn⟩ := singleCost_none ops
  obtain ⟨e', h1, h2, _⟩ := hi.setGroupError g v
  rw [afterOps_append]
  show ((afterOps ops).setGroupError g v).1.getSubstituteError a b = _
  rw [h1] at hok ⊢
  cases hacc : accepted h g with
  | false => rw [hacc] at hok; cases hok
  | true =>
    rw [h2.cost, cost_group_hit v hacc ha hb hne]
    rcases hs with hs | hs
    · exact Or.inl hs
    · right
      by_contra hc
      exact hs (hsn a b hc)

/-- C33. Pairs not both in the group keep their cost, whether the call succeeds or not. -/
theorem C33_others_keep [Build] [Icu] (ops : List ErrOp) (g : Word) (v : Int) (a b : Letter) (hn : ¬ (a ∈ g ∧ b ∈ g)) :
    (afterOps (ops ++ [.setGroupError g v])).getSubstituteError a b = (afterOps ops).getSubstituteError a b :=
  C31_others_keep ops _ a b hn

/-- A group of low and high letters. -/
example : (@afterOps Example.debug Example.icu [.setGroupError [0x61, 0xe1, 0x1eaf] 30]).getSubstituteError 0x1eaf 0x61 =
    .ok 30 := by rfl

/-! ### C34 -/

/-- C34 is false for the state after the exception: letters above the table that precede the offending one stay
grouped, at the cost of the refused group. -/
theorem C34_false [Build] [Icu] :
    ((afterOps [.setGroupError [0x61] 30]).setGroupError [0x3b1, 0x3b2, 0x61] 7).2 = some .runtimeError ∧
    (afterOps [.setGroupError [0x61] 30]).getSubstituteError 0x3b1 0x3b2 = .ok 100 ∧
    (afterOps [.setGroupError [0x61] 30, .setGroupError [0x3b1, 0x3b2, 0x61] 7]).getSubstituteError 0x3b1 0x3b2 = .ok 7 :=
  ⟨rfl, rfl, rfl⟩

/-- C34, what holds: the exception comes exactly when some letter is already in a group; after it pairs below the table
limit and pairs not both in the refused group cost what they did. Missing from the full claim: pairs of the refused
group above the limit. -/
theorem C34_partial [Build] [Icu] (ops : List ErrOp) (g : Word) (v : Int) :
    (((afterOps ops).setGroupError g v).2 = none ∨ ((afterOps ops).setGroupError g v).2 = some .runtimeError) ∧
    (((afterOps ops).setGroupError g v).2 = some .runtimeError ↔ ∃ l ∈ g, (afterOps ops).isInGroup l = true) ∧
    (((afterOps ops).setGroupError g v).2 = some .runtimeError →
      ∀ a b : Letter, ((a.toNat < 512 ∧ b.toNat < 512) ∨ ¬ (a ∈ g ∧ b ∈ g)) →
        ((afterOps ops).setGroupError g v).1.getSubstituteError a b = (afterOps ops).getSubstituteError a b) := by
  obtain ⟨h, hi, _⟩ := afterOps_inv ops
  obtain ⟨e', h1, h2, _⟩ := hi.setGroupError g v
  rw [h1]
  have hacc : (if accepted h g then none else some Fault.runtimeError) = some Fault.runtimeError ↔
      ∃ l ∈ g, (afterOps ops).isInGroup l = true := by
    constructor
    · intro hn
      by_contra hc
      rw [accepted_iff.2, if_pos rfl] at hn
      · cases hn
      · intro l hl
        rw [Bool.eq_false_iff]; intro hg
        exact hc ⟨l, hl, by rw [hi.isInGroup]; exact hg⟩
    · rintro ⟨l, hl, hg⟩
      rw [hi.isInGroup] at hg
      rw [if_neg]
      intro ha
      rw [accepted_iff.1 ha l hl] at hg; cases hg
  refine ⟨?_, hacc, ?_⟩
  · simp only; split <;> simp
  · intro hr a b hab
    simp only at hr ⊢
    rw [h2.cost, hi.cost]
    rcases hab with hab | hab
    · rw [cost, if_pos hab, cost, if_pos hab, tableCost, if_neg]
      rintro ⟨ha, _⟩
      rw [ha] at hr; cases hr
    · rw [cost_untouched]
      exact hab

/-- C34, what a refused call leaves behind: the letters before the first one that is already in a group form a group of
their own. Two different ones cost the value of the refused group, unless both are below the table limit or the pair was
set individually; all other pairs cost what they did. -/
theorem C34_refused_partial [Build] [Icu] (ops : List ErrOp) (pre post : Word) (x : Letter) (v : Int)
    (hpre : ∀ l ∈ pre, (afterOps ops).isInGroup l = false) (hx : (afterOps ops).isInGroup x = true) :
    ((afterOps ops).setGroupError (pre ++ x :: post) v).2 = some .runtimeError ∧
    (∀ l, ((afterOps ops).setGroupError (pre ++ x :: post) v).1.isInGroup l =
      ((afterOps ops).isInGroup l || decide (l ∈ pre))) ∧
    (∀ a b : Letter, a ∈ pre → b ∈ pre → a ≠ b → ¬ (a.toNat < 512 ∧ b.toNat < 512) → ¬ SetSingly ops a b →
      ((afterOps ops).setGroupError (pre ++ x :: post) v).1.getSubstituteError a b = .ok v) ∧
    (∀ a b : Letter, ¬ (a ∈ pre ∧ b ∈ pre) ∨ a = b ∨ (a.toNat < 512 ∧ b.toNat < 512) →
      ((afterOps ops).setGroupError (pre ++ x :: post) v).1.getSubstituteError a b = (afterOps ops).getSubstituteError a b) := by
  obtain ⟨h, hi, hsn⟩ := singleCost_none ops
  obtain ⟨e', h1, h2, _⟩ := hi.setGroupError (pre ++ x :: post) v
  have hp : ∀ l ∈ pre, inGroups (groups h) l = false := fun l hl => by rw [← hi.isInGroup]; exact hpre l hl
  have hxg : inGroups (groups h) x = true := by rw [← hi.isInGroup]; exact hx
  have hna : accepted h (pre ++ x :: post) = false := by
    rw [Bool.eq_false_iff]
    intro ha
    rw [accepted_iff.1 ha x (by simp)] at hxg; cases hxg
  have htw : ((pre ++ x :: post).takeWhile fun l => !inGroups (groups h) l) = pre := by
    rw [List.takeWhile_append_of_pos (by intro l hl; rw [hp l hl]; rfl), List.takeWhile_cons, hxg]
    simp
  have hgr : groups (.group (pre ++ x :: post) v :: h) = groups h ++ [(pre, v)] := by rw [groups, htw]
  have hfind : ∀ a b, a ∈ pre → (groups h).find? (fun p => decide (a ∈ p.1) && decide (b ∈ p.1)) = none := by
    intro a b ha
    rw [List.find?_eq_none]
    intro p hp' hc
    simp only [Bool.and_eq_true, decide_eq_true_eq] at hc
    have := inGroups_iff.2 ⟨p, hp', hc.1⟩
    rw [hp a ha] at this; cases this
  rw [h1]
  refine ⟨by rw [hna]; rfl, ?_, ?_, ?_⟩
  · intro l
    rw [h2.isInGroup, hi.isInGroup, hgr, inGroups_append]
    simp [inGroups]
  · intro a b ha hb hne hl hs
    have hs' : singleCost h a b = none := by
      by_contra hc
      exact hs (hsn a b hc)
    rw [h2.cost, cost, if_neg hl, mapCost, if_neg hne]
    simp only [singleCost, hs', groupCost, hgr, List.find?_append, hfind a b ha]
    simp [ha, hb]
  · intro a b hab
    rw [h2.cost, hi.cost]
    congr 1
    rw [cost, cost]
    split
    · rw [tableCost, if_neg]
      rintro ⟨ha, _⟩
      rw [hna] at ha; cases ha
    · rename_i hl
      rw [mapCost, mapCost]
      by_cases hne : a = b
      · rw [if_pos hne, if_pos hne]
      · rw [if_neg hne, if_neg hne]
        have hn : ¬ (a ∈ pre ∧ b ∈ pre) := by
          rcases hab with h | h | h
          · exact h
          · exact absurd h hne
          · exact absurd h hl
        simp only [singleCost]
        cases singleCost h a b with
        | some w => rfl
        | none =>
          simp only [groupCost, hgr, List.find?_append]
          have : [(pre, v)].find? (fun p => decide (a ∈ p.1) && decide (b ∈ p.1)) = none := by
            simp only [List.find?_singleton]
            rw [if_neg]
            simp only [Bool.and_eq_true, decide_eq_true_eq]; exact hn
          rw [this, Option.or_none]

/-- C34. After a successful call exactly the letters of the group have been added to those in groups. -/
theorem C34_members [Build] [Icu] (ops : List ErrOp) (g : Word) (v : Int) (l : Letter)
    (hok : ((afterOps ops).setGroupError g v).2 = none) :
    ((afterOps ops).setGroupError g v).1.isInGroup l = ((afterOps ops).isInGroup l || decide (l ∈ g)) := by
  obtain ⟨h, hi, _⟩ := afterOps_inv ops
  obtain ⟨e', h1, h2, _⟩ := hi.setGroupError g v
  rw [h1] at hok ⊢
  cases hacc : accepted h g with
  | false => rw [hacc] at hok; cases hok
  | true => rw [h2.isInGroup, hi.isInGroup, inGroups_group h g v l hacc]

/-! ### C35 -/

/-- C35. `clearErrors` restores the default substitution costs and empties the groups; the other settings stay. -/
theorem C35_clear [Build] [Icu] (ops : List ErrOp) :
    (∀ a b, (afterOps (ops ++ [.clearErrors])).getSubstituteError a b = .ok (if a = b then 0 else 100)) ∧
    (∀ l, (afterOps (ops ++ [.clearErrors])).isInGroup l = false) ∧
    (afterOps (ops ++ [.clearErrors])).getInsertionError = (afterOps ops).getInsertionError ∧
    (afterOps (ops ++ [.clearErrors])).getDeletionError = (afterOps ops).getDeletionError ∧
    (afterOps (ops ++ [.clearErrors])).getEndDeletionError = (afterOps ops).getEndDeletionError ∧
    (∀ n, (afterOps (ops ++ [.clearErrors])).getStartInsertionError n = (afterOps ops).getStartInsertionError n) ∧
    (afterOps (ops ++ [.clearErrors])).getTransposeError = (afterOps ops).getTransposeError := by
  obtain ⟨h, hi, _⟩ := afterOps_inv ops
  have e : afterOps (ops ++ [.clearErrors]) = (afterOps ops).clearErrors := by rw [afterOps_append]; rfl
  rw [e]
  refine ⟨?_, ?_, rfl, rfl, rfl, fun _ => rfl, rfl⟩
  · intro a b
    rw [hi.clear.cost, cost, tableCost, mapCost]
    congr 1
    split
    · rfl
    · rfl
  · intro l; rw [hi.clear.isInGroup]; rfl

/-- There is something to clear. -/
example : (@afterOps Example.debug Example.icu [.setGroupError [0x61, 0xe1] 30]).isInGroup 0xe1 = true := by rfl

/-! ### C36 -/

/-- C36. On a new object with data files whose groups are disjoint the call succeeds; two different letters of a group
or two neighbours on the keyboard cost 30, all the others 100; a second call throws. -/
theorem C36_standard [Build] [Icu] (d : DataDir) (latin greek : List Bytes) (gs gs' : List Word)
    (hl : d false = some latin) (hg : d true = some greek)
    (hlw : List.Forall₂ (fun l g => Word.ofUtf8 (l.takeWhile (· != 0)) = .ok g) latin gs)
    (hgw : List.Forall₂ (fun l g => Word.ofUtf8 (l.takeWhile (· != 0)) = .ok g) greek gs')
    (hdis : (gs ++ gs').Pairwise fun g g' => ∀ l ∈ g, l ∉ g') :
    ∃ e, addStandardErrors d ErrorValues.new = (e, none) ∧
      (∀ g ∈ gs ++ gs', ∀ a ∈ g, ∀ b ∈ g, a ≠ b → e.getSubstituteError a b = .ok 30) ∧
      (∀ a b, KeyNeighbours a b → e.getSubstituteError a b = .ok 30) ∧
      (∀ a b, a ≠ b → ¬ KeyNeighbours a b → (¬ ∃ g ∈ gs ++ gs', a ∈ g ∧ b ∈ g) → e.getSubstituteError a b = .ok 100) ∧
      (∀ a, e.getSubstituteError a a = .ok 0) ∧
      ((∃ g ∈ gs ++ gs', g ≠ []) → (addStandardErrors d e).2 = some .runtimeError) := by
  have hlw' : Lines (latin.map fun l => l.takeWhile (· != 0)) gs := by
    rw [Lines, List.forall₂_map_left_iff]; exact hlw
  have hgw' : Lines (greek.map fun l => l.takeWhile (· != 0)) gs' := by
    rw [Lines, List.forall₂_map_left_iff]; exact hgw
  rw [List.pairwise_append] at hdis
  obtain ⟨e1, ev1, p1, i1, s1, m1, c1, o1⟩ := accentLoop_ok hlw' new_inv hdis.1 (fun _ _ _ _ => rfl) (fun _ _ => rfl)
  obtain ⟨e2, ev2, p2, i2, s2, m2, c2, o2⟩ := accentLoop_ok hgw' i1 hdis.2.1 (by
    intro g hg l hl
    rw [Bool.eq_false_iff, ne_eq, m1 l]
    rintro (h | ⟨g0, hg0, h⟩)
    · cases h
    · exact hdis.2.2 g0 hg0 g hg l h hl) s1
  obtain ⟨e3, ev3, p3, rfl, i3, _, t3⟩ := keyboard_inv i2
  have eq : addStandardErrors d ErrorValues.new = (e3, none) := by
    rw [addStandardErrors, addAccents, hl]
    simp only [p1]
    rw [addAccents, hg]
    simp only [p2, p3]
  have kk : (keyPairs.any fun p => p.1 == p.2) = false := by decide +kernel
  have hkne : ∀ a b, KeyNeighbours a b → a ≠ b := by
    rintro a b hk rfl
    have : (a, a) ∈ keyPairs := by rcases hk with h | h <;> exact h
    have := List.any_eq_false.1 kk _ this
    simp at this
  have tk : ∀ a b, (∃ ev ∈ singles allKeyPairs, ev.Touches a b) ↔ KeyNeighbours a b := by
    intro a b
    constructor
    · rintro ⟨ev, hev, ht⟩
      obtain ⟨x, y, hk, rfl⟩ := t3 ev hev
      rcases samePair_iff.1 ht with ⟨rfl, rfl⟩ | ⟨rfl, rfl⟩
      · exact Or.inl hk
      · exact Or.inr hk
    · intro hk
      have mem : ∀ x y, (x, y) ∈ keyPairs → Ev.single x y 30 ∈ singles allKeyPairs := by
        intro x y hxy
        rw [singles, List.mem_reverse, List.mem_map]
        exact ⟨(x, y, 30), (mem_allKeyPairs _).2 ⟨hxy, rfl⟩, rfl⟩
      rcases hk with hk | hk
      · exact ⟨_, mem _ _ hk, samePair_iff.2 (Or.inl ⟨rfl, rfl⟩)⟩
      · exact ⟨_, mem _ _ hk, samePair_iff.2 (Or.inr ⟨rfl, rfl⟩)⟩
  have ckey : ∀ a b, KeyNeighbours a b → cost (singles allKeyPairs ++ (ev2 ++ (ev1 ++ []))) a b = 30 := by
    intro a b hk
    refine cost_singles _ (hkne a b hk) ((tk a b).2 hk) ?_
    intro ev hev _
    obtain ⟨x, y, _, rfl⟩ := t3 ev hev
    exact ⟨x, y, rfl⟩
  have cother : ∀ a b, ¬ KeyNeighbours a b → cost (singles allKeyPairs ++ (ev2 ++ (ev1 ++ []))) a b =
      cost (ev2 ++ (ev1 ++ [])) a b := by
    intro a b hk
    apply cost_untouched_list
    intro ev hev ht
    exact hk ((tk a b).1 ⟨ev, hev, ht⟩)
  refine ⟨e3, eq, ?_, ?_, ?_, ?_, ?_⟩
  · intro g hgm a ha b hb hne
    rw [i3.cost]
    by_cases hk : KeyNeighbours a b
    · rw [ckey a b hk]
    · rw [cother a b hk]
      rcases List.mem_append.1 hgm with hgm | hgm
      · rw [o2 a b, c1 g hgm a ha b hb hne]
        rintro ⟨g', hg', h1, _⟩
        exact hdis.2.2 g hgm g' hg' a ha h1
      · rw [c2 g hgm a ha b hb hne]
  · intro a b hk
    rw [i3.cost, ckey a b hk]
  · intro a b hne hk hng
    rw [i3.cost, cother a b hk, o2 a b (fun ⟨g, h1, h2⟩ => hng ⟨g, List.mem_append_right _ h1, h2⟩),
      o1 a b (fun ⟨g, h1, h2⟩ => hng ⟨g, List.mem_append_left _ h1, h2⟩)]
    rw [cost, tableCost, mapCost, if_neg hne, if_neg hne]
    simp [singleCost, groupCost, groups]
  · intro a
    have hk : ¬ KeyNeighbours a a := fun h => hkne a a h rfl
    have : e3 = afterOps [.addStandardErrors d] := by
      show e3 = (addStandardErrors d ErrorValues.new).1
      rw [eq]
    rw [this]
    exact C30_partial _ a (Or.inr (by simp))
  · rintro ⟨g, hgm, hne⟩
    have gr : ∀ l, inGroups (groups (singles allKeyPairs ++ (ev2 ++ (ev1 ++ [])))) l =
        inGroups (groups (ev2 ++ (ev1 ++ []))) l := by
      intro l
      have : ∀ (evs h : List Ev), (∀ ev ∈ evs, ∃ x y v, ev = Ev.single x y v) → groups (evs ++ h) = groups h := by
        intro evs h
        induction evs with
        | nil => intro _; rfl
        | cons ev evs ih =>
          intro hall
          obtain ⟨x, y, v, rfl⟩ := hall ev (by simp)
          exact ih fun e he => hall e (by simp [he])
      rw [this]
      intro ev hev
      obtain ⟨x, y, _, rfl⟩ := t3 ev hev
      exact ⟨x, y, 30, rfl⟩
    have hin1 : ∀ g ∈ gs, ∀ l ∈ g, inGroups (groups (singles allKeyPairs ++ (ev2 ++ (ev1 ++ [])))) l = true := by
      intro g hg l hl
      rw [gr, m2 l, m1 l]
      exact Or.inl (Or.inr ⟨g, hg, hl⟩)
    have hin2 : ∀ g ∈ gs', ∀ l ∈ g, inGroups (groups (singles allKeyPairs ++ (ev2 ++ (ev1 ++ [])))) l = true := by
      intro g hg l hl
      rw [gr, m2 l]
      exact Or.inr ⟨g, hg, hl⟩
    obtain ⟨a1, a2⟩ := accentLoop_again hlw' i3 hin1
    obtain ⟨b1, _⟩ := accentLoop_again hgw' i3 hin2
    rw [addStandardErrors, addAccents, hl]
    simp only
    by_cases hex : ∃ g ∈ gs, g ≠ []
    · have := a1 hex
      generalize accentLoop e3 _ = A at this
      obtain ⟨x, o⟩ := A
      simp only at this; subst this
      rfl
    · have hall : ∀ g ∈ gs, g = [] := by
        intro g hg; by_contra hc; exact hex ⟨g, hg, hc⟩
      rw [a2 hall]
      simp only
      have hex2 : ∃ g ∈ gs', g ≠ [] := by
        rcases List.mem_append.1 hgm with h | h
        · exact absurd (hall g h) hne
        · exact ⟨g, h, hne⟩
      have := b1 hex2
      rw [addAccents, hg]
      simp only
      generalize accentLoop e3 _ = A at this
      obtain ⟨x, o⟩ := A
      simp only at this; subst this
      rfl

/-! ### C37 -/

/-- C37. `addKeyboardErrors` succeeds; neighbours cost 30, every other pair what it did. -/
theorem C37_keyboard [Build] [Icu] (ops : List ErrOp) :
    ∃ e, (afterOps ops).addKeyboardErrors = .ok e ∧
      (∀ a b, KeyNeighbours a b → e.getSubstituteError a b = .ok 30) ∧
      (∀ a b, ¬ KeyNeighbours a b → e.getSubstituteError a b = (afterOps ops).getSubstituteError a b) := by
  obtain ⟨h, hi, _⟩ := afterOps_inv ops
  obtain ⟨e3, ev3, p3, rfl, i3, _, t3⟩ := keyboard_inv hi
  have kk : (keyPairs.any fun p => p.1 == p.2) = false := by decide +kernel
  have mem : ∀ x y, (x, y) ∈ keyPairs → Ev.single x y 30 ∈ singles allKeyPairs := by
    intro x y hxy
    rw [singles, List.mem_reverse, List.mem_map]
    exact ⟨(x, y, 30), (mem_allKeyPairs _).2 ⟨hxy, rfl⟩, rfl⟩
  refine ⟨e3, p3, ?_, ?_⟩
  · intro a b hk
    rw [i3.cost, cost_singles]
    · rintro rfl
      have : (a, a) ∈ keyPairs := by rcases hk with h | h <;> exact h
      have := List.any_eq_false.1 kk _ this
      simp at this
    · rcases hk with hk | hk
      · exact ⟨_, mem _ _ hk, samePair_iff.2 (Or.inl ⟨rfl, rfl⟩)⟩
      · exact ⟨_, mem _ _ hk, samePair_iff.2 (Or.inr ⟨rfl, rfl⟩)⟩
    · intro ev hev _
      obtain ⟨x, y, _, rfl⟩ := t3 ev hev
      exact ⟨x, y, rfl⟩
  · intro a b hk
    rw [i3.cost, hi.cost, cost_untouched_list]
    intro ev hev ht
    obtain ⟨x, y, hxy, rfl⟩ := t3 ev hev
    rcases samePair_iff.1 ht with ⟨rfl, rfl⟩ | ⟨rfl, rfl⟩
    · exact hk (Or.inl hxy)
    · exact hk (Or.inr hxy)

/-- The table is not empty: q touches 1, 2, w and a, and nothing else on the board. -/
example : KeyNeighbours 0x71 0x31 ∧ KeyNeighbours 0x71 0x32 ∧ KeyNeighbours 0x71 0x77 ∧ KeyNeighbours 0x71 0x61 ∧
    ¬ KeyNeighbours 0x71 0x73 := by decide +kernel

/-! ### C38 -/

/-- C38 is false: the tests `i-1 > 0` and `j-1 > 0` leave out the first column and the first row. `5` is next to the
button with `g` but the pair keeps the default cost. -/
theorem C38_false [Build] [Icu] : NextToButton 0x35 0x67 ∧ NextToButton 0x36 0x64 ∧
    (afterOps [.addNumberpadErrors]).getSubstituteError 0x35 0x67 = .ok 100 ∧
    (afterOps [.addNumberpadErrors]).getSubstituteError 0x36 0x64 = .ok 100 := by
  refine ⟨⟨1, 1, [0x6a, 0x6b, 0x6c], 1, 0, 0x34, [0x67, 0x68, 0x69], ?_, ?_, ?_, ?_⟩,
    ⟨1, 2, [0x6d, 0x6e, 0x6f], 0, 2, 0x33, [0x64, 0x65, 0x66], ?_, ?_, ?_, ?_⟩, ?_, ?_⟩
  · decide +kernel
  · decide +kernel
  · decide +kernel
  · left; omega
  · decide +kernel
  · decide +kernel
  · decide +kernel
  · right; omega
  all_goals
    show (ofM ErrorValues.new ErrorValues.new.addNumberpadErrors).1.getSubstituteError _ _ = _
    obtain ⟨e', h1, h2, _⟩ := new_inv.setErrors allPadPairs
    rw [addNumberpadErrors_eq, h1]
    show e'.getSubstituteError _ _ = _
    rw [h2.cost]
    decide +kernel

/-- The neighbours that the routine leaves out: `5` with the letters of `4` and `2`, `6` with those of `3`, `8` with those
of `7`. -/
def PadOmitted (d l : Letter) : Prop :=
  (d = 0x35 ∧ l ∈ ([0x67, 0x68, 0x69, 0x61, 0x62, 0x63] : List Letter)) ∨ (d = 0x36 ∧ l ∈ ([0x64, 0x65, 0x66] : List Letter)) ∨
  (d = 0x38 ∧ l ∈ ([0x70, 0x71, 0x72, 0x73] : List Letter))

instance (d l : Letter) : Decidable (PadOmitted d l) := inferInstanceAs (Decidable (_ ∨ _ ∨ _))

/-- C38, what holds: the call succeeds; the letters on a digit's own button cost 0, those on adjacent buttons 50 except
the omitted ones, all other pairs, also the omitted ones, what they did. Missing from the full claim: the omitted
neighbours. -/
theorem C38_partial [Build] [Icu] (ops : List ErrOp) :
    ∃ e, (afterOps ops).addNumberpadErrors = .ok e ∧
      (∀ d l, OnButton d l → e.getSubstituteError d l = .ok 0 ∧ e.getSubstituteError l d = .ok 0) ∧
      (∀ d l, NextToButton d l → ¬ PadOmitted d l → e.getSubstituteError d l = .ok 50 ∧ e.getSubstituteError l d = .ok 50) ∧
      (∀ a b, ¬ (OnButton a b ∨ NextToButton a b) → ¬ (OnButton b a ∨ NextToButton b a) →
        e.getSubstituteError a b = (afterOps ops).getSubstituteError a b) ∧
      ∀ d l, PadOmitted d l → e.getSubstituteError d l = (afterOps ops).getSubstituteError d l ∧
        e.getSubstituteError l d = (afterOps ops).getSubstituteError l d := by
  obtain ⟨h, hi, _⟩ := afterOps_inv ops
  obtain ⟨e', h1, h2, _⟩ := hi.setErrors allPadPairs
  have ku : (allPadPairs.all fun p => allPadPairs.all fun p' =>
      !samePair p.1 p.2.1 p'.1 p'.2.1 || p.2.2 == p'.2.2) = true := by decide +kernel
  have kne : (allPadPairs.any fun p => p.1 == p.2.1) = false := by decide +kernel
  have hit : ∀ d l v, (d, l, v) ∈ allPadPairs → e'.getSubstituteError d l = .ok v ∧ e'.getSubstituteError l d = .ok v := by
    intro d l v hm
    have hne : d ≠ l := by
      have := List.any_eq_false.1 kne _ hm
      simpa using this
    have hc : cost (singles allPadPairs ++ h) d l = v := by
      apply cost_singles _ hne
      · refine ⟨.single d l v, ?_, samePair_iff.2 (Or.inl ⟨rfl, rfl⟩)⟩
        rw [singles, List.mem_reverse, List.mem_map]
        exact ⟨_, hm, rfl⟩
      · intro ev hev ht
        obtain ⟨a, b, w, hab, rfl⟩ := mem_singles hev
        have := List.all_eq_true.1 (List.all_eq_true.1 ku _ hm) _ hab
        simp only [Bool.or_eq_true, Bool.not_eq_true', beq_iff_eq] at this
        rcases this with h | h
        · rw [show samePair d l a b = true from ht] at h; cases h
        · exact ⟨a, b, by rw [h]⟩
    rw [h2.cost, h2.cost, cost_comm _ d l, hc]
    exact ⟨rfl, rfl⟩
  refine ⟨e', by rw [addNumberpadErrors_eq, h1], ?_, ?_, ?_, ?_⟩
  · rintro d l ⟨r, c, ls, hm, hl⟩
    apply hit
    have kp : (padButtons.all fun q => q.2.2.2.all fun l => allPadPairs.contains (q.2.2.1, l, 0)) = true := by
      decide +kernel
    simpa using List.all_eq_true.1 (List.all_eq_true.1 kp _ hm) l hl
  · rintro d l ⟨r, c, ls, r', c', d', ls', hm, hm', hl, hadj⟩ hom
    apply hit
    have kp : (padButtons.all fun q => padButtons.all fun q' => q'.2.2.2.all fun l =>
        !((q.1 == q'.1 && (q.2.1 == q'.2.1 + 1 || q'.2.1 == q.2.1 + 1)) ||
          (q.2.1 == q'.2.1 && (q.1 == q'.1 + 1 || q'.1 == q.1 + 1))) ||
        decide (PadOmitted q.2.2.1 l) || allPadPairs.contains (q.2.2.1, l, 50)) = true := by
      decide +kernel
    have := List.all_eq_true.1 (List.all_eq_true.1 (List.all_eq_true.1 kp _ hm) _ hm') l hl
    simp only [Bool.or_eq_true, Bool.not_eq_true', Bool.or_eq_false_iff, decide_eq_true_eq, List.contains_iff_mem] at this
    rcases this with (⟨h1, h2⟩ | h3) | h4
    · exfalso
      rcases hadj with ⟨rfl, hc⟩ | ⟨rfl, hc⟩
      · simp at h1; omega
      · simp at h2; omega
    · exact absurd h3 hom
    · exact h4
  · intro a b hn1 hn2
    rw [h2.cost, hi.cost, cost_untouched_list]
    intro ev hev ht
    have := makes_touches (op := .addNumberpadErrors) (mem_singles hev) ht
    rcases this with h | h
    · exact hn1 h
    · exact hn2 h
  · intro d l ho
    have kp : (allPadPairs.all fun p => !decide (PadOmitted p.1 p.2.1) && !decide (PadOmitted p.2.1 p.1)) = true := by
      decide +kernel
    have keep : ∀ a b, PadOmitted a b ∨ PadOmitted b a → e'.getSubstituteError a b = (afterOps ops).getSubstituteError a b := by
      intro a b hab
      rw [h2.cost, hi.cost, cost_untouched_list]
      intro ev hev ht
      obtain ⟨x, y, v, hm, rfl⟩ := mem_singles hev
      have := List.all_eq_true.1 kp _ hm
      simp only [Bool.and_eq_true, Bool.not_eq_true', decide_eq_false_iff_not] at this
      rcases samePair_iff.1 (show samePair a b x y = true from ht) with ⟨rfl, rfl⟩ | ⟨rfl, rfl⟩
      · exact hab.elim this.1 this.2
      · exact hab.elim this.2 this.1
    exact ⟨keep d l (Or.inl ho), keep l d (Or.inr ho)⟩

/-- `2` is next to `d`, and `d` is on `3`. -/
example : OnButton 0x33 0x64 ∧ NextToButton 0x32 0x64 :=
  ⟨⟨0, 2, [0x64, 0x65, 0x66], by decide +kernel, by decide +kernel⟩,
   ⟨0, 1, [0x61, 0x62, 0x63], 0, 2, 0x33, [0x64, 0x65, 0x66], by decide +kernel, by decide +kernel, by decide +kernel,
    by left; omega⟩⟩

end Columbus.Props
