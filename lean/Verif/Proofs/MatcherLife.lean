import Verif.Model.MatcherLife
import Verif.Spec.MatcherLife
import Verif.Proofs.MatcherOnline
import Verif.Proofs.Resources
/-
Helpers for C94.
-/

namespace Columbus.Life
open Columbus Spec

/-- The size of the file of a trie whose paths are the prefixes of some words. -/
theorem room {t : Trie} {g : Ghost} (h : TInv t g) {ws : List Word}
    (hp : ∀ r, (∃ k, k < g.n ∧ g.path k = r) ↔ r = [] ∨ ∃ w ∈ ws, r <+: w) : Room (prefixCount ws) t.mapped := by
  have hn : prefixCount ws = g.n := by
    have hq : ((List.range g.n).map g.path).Perm ([] :: ws.flatMap List.inits).dedup := by
      rw [List.perm_ext_iff_of_nodup _ (List.nodup_dedup _)]
      · intro r
        rw [List.mem_dedup, List.mem_cons, List.mem_flatMap, List.mem_map]
        simp only [List.mem_inits, List.mem_range]
        exact hp r
      · apply List.Nodup.map_on _ List.nodup_range
        intro a ha b hb hab
        exact h.path_inj a b (List.mem_range.1 ha) (List.mem_range.1 hb) hab
    have := hq.length_eq
    simpa [prefixCount] using this.symm
  obtain ⟨j, hj, hm⟩ := h.hdr.size
  have hlt := h.hdr.lt
  have hfree := h.hdr.free_eq
  have hs := h.snug
  rw [hn]
  refine ⟨j, hm, hlt, fun i hi => ?_⟩
  rcases Nat.lt_or_ge i j with hij | hij
  · exfalso
    have hp : 2^(i+1) ≤ 2^j := Nat.pow_le_pow_right (by omega) hij
    rw [Nat.pow_succ] at hp
    have h1 : 1 ≤ 2^i := Nat.one_le_two_pow
    rcases hs with hs | hs
    · omega
    · rw [hfree] at hs; omega
  · exact hij

theorem _root_.Columbus.SInv.paths {s : WordStore} {g : Ghost} {ws : List Word} (h : SInv s g ws) (r : Word) :
    (∃ k, k < g.n ∧ g.path k = r) ↔ r = [] ∨ ∃ w ∈ ws, r <+: w := by
  constructor
  · rintro ⟨k, hk, rfl⟩
    by_cases hk0 : k = 0
    · subst hk0; exact Or.inl h.trie.path0
    · exact Or.inr (h.pre k (by omega) hk)
  · rintro (rfl | ⟨w, hw, hr⟩)
    · exact ⟨0, h.trie.pos, h.trie.path0⟩
    · obtain ⟨i, hi⟩ := List.mem_iff_getElem?.1 hw
      obtain ⟨k, hk, e, _⟩ := h.node i w hi
      rw [← e] at hr
      obtain ⟨j, hj, e⟩ := h.trie.prefix_path k hk r hr
      exact ⟨j, by omega, e⟩

/-- Destroying objects one after the other. -/
theorem run_destroy [Build] : ∀ (os : List Res.Obj) (p : Res.Proc),
    Res.run ((List.range' p.length os.length).map .destroy) (p ++ os.map fun o => (.alive, o)) =
      .ok (p ++ os.map fun o => (.ended, (Res.destroy o).1))
  | [], p => by simp [Res.run]
  | o :: os, p => by
    have hs : Res.step (p ++ (o :: os).map fun o => (.alive, o)) (.destroy p.length) =
        .ok (p ++ [(.ended, (Res.destroy o).1)] ++ os.map fun o => (.alive, o)) := by
      simp [Res.step, List.set_append_right]
    rw [List.length_cons, List.range'_succ, List.map_cons, Res.run, hs, ok_bind]
    have := run_destroy os (p ++ [(.ended, (Res.destroy o).1)])
    rw [List.length_append, List.length_singleton] at this
    rw [this]
    simp

theorem destroy_eq [Build] (sys : Res.System) (m : Matcher) :
    destroy sys m = .ok ((tries m).map fun t => (.ended, (Res.destroy (held sys t)).1)) := by
  have := run_destroy ((tries m).map (held sys)) []
  simpa [destroy, holds, List.range_eq_range', List.map_map, Function.comp_def] using this

theorem mappings_holds {sys : Res.System} {m : Matcher} (h : ∀ t ∈ tries m, t.mapped ≠ 0) :
    Res.mappings (holds sys m) = (tries m).map (·.mapped) := by
  unfold Res.mappings holds
  rw [List.filterMap_map]
  generalize tries m = ts at h
  induction ts with
  | nil => rfl
  | cons t ts ih =>
    rw [List.filterMap_cons_some (b := t.mapped), List.map_cons, ih fun t ht => h t (by simp [ht])]
    simp only [Function.comp_def, held, if_neg (h t (by simp))]

theorem find_of_mem {K V : Type} [DecidableEq K] : ∀ {m : HMap K V} {p : K × V}, (m.map (·.1)).Nodup → p ∈ m →
    HMap.find m p.1 = some p.2
  | [], _, _, h => absurd h (by simp)
  | q :: m, p, hn, h => by
    rw [List.map_cons, List.nodup_cons] at hn
    obtain ⟨a, b⟩ := q
    rcases List.mem_cons.1 h with rfl | h'
    · simp [HMap.find]
    · have hne : a ≠ p.1 := fun e => hn.1 (List.mem_map.2 ⟨p, h', e.symm⟩)
      rw [HMap.find, if_neg hne]
      exact find_of_mem hn.2 h'

theorem mem_of_find {K V : Type} [DecidableEq K] : ∀ {m : HMap K V} {k : K} {v : V}, HMap.find m k = some v → (k, v) ∈ m
  | [], _, _, h => by cases h
  | (a, b) :: m, k, v, h => by
    rw [HMap.find] at h
    split at h
    · rename_i e; subst e; cases h; simp
    · exact List.mem_cons_of_mem _ (mem_of_find h)

section
variable [Build] [Icu]

theorem fields_of {m : Matcher} {H : MatcherHistory} {names : List Word} (h : MInv m H names) :
    ∃ (fields : List Word) (size : Word → Nat), fields.Nodup ∧ (∀ f, f ∈ fields ↔ H.occurrences f ≠ []) ∧
      m.indexes.map (·.2.trie.mapped) = fields.map size ∧
      ∀ f ∈ fields, Room (prefixCount (H.occurrences f)) (size f) := by
  have hn := h.store.nodup
  have hfind : ∀ p ∈ m.indexes, HMap.find m.indexes p.1 = some p.2 := by
    intro p hp
    exact find_of_mem h.keys hp
  have hname : ∀ p ∈ m.indexes, ∃ f, names[p.1]? = some f ∧ names.getD p.1 [] = f ∧ names.idxOf f = p.1 ∧ H.occurrences f ≠ [] ∧
      IxInv m.os names H f p.2 := by
    intro p hp
    obtain ⟨f, hf, ho, hi⟩ := h.ixs p.1 p.2 (hfind p hp)
    refine ⟨f, hf, by simp [List.getD, hf], ?_, ho, hi⟩
    obtain ⟨hlt, rfl⟩ := List.getElem?_eq_some_iff.1 hf
    exact hn.idxOf_getElem _ hlt
  refine ⟨m.indexes.map fun p => names.getD p.1 [], fun f => ((HMap.find m.indexes (names.idxOf f)).elim 0 (·.trie.mapped)), ?_, ?_, ?_, ?_⟩
  · rw [show (m.indexes.map fun p => names.getD p.1 []) = (m.indexes.map (·.1)).map fun i => names.getD i [] from by
      rw [List.map_map]; rfl]
    apply List.Nodup.map_on _ h.keys
    intro a ha b hb hab
    obtain ⟨p, hp, rfl⟩ := List.mem_map.1 ha
    obtain ⟨q, hq, rfl⟩ := List.mem_map.1 hb
    obtain ⟨f, _, e1, e2, _⟩ := hname p hp
    obtain ⟨f', _, e1', e2', _⟩ := hname q hq
    rw [e1, e1'] at hab
    rw [← e2, ← e2', hab]
  · intro f
    constructor
    · intro hf
      obtain ⟨p, hp, rfl⟩ := List.mem_map.1 hf
      obtain ⟨f, _, e1, _, ho, _⟩ := hname p hp
      rw [e1]; exact ho
    · intro ho
      have hm : f ∈ names := by
        obtain ⟨w, hw⟩ := List.exists_mem_of_ne_nil _ ho
        obtain ⟨x, hx, _⟩ := List.mem_flatMap.1 hw
        rw [List.mem_filter, beq_iff_eq] at hx
        exact h.known f (List.mem_flatMap.2 ⟨x, hx.1, by simp [hx.2]⟩)
      have hi := getElem?_idxOf hm
      obtain ⟨ix, hx⟩ := Option.ne_none_iff_exists'.1 (h.has _ f hi ho)
      exact List.mem_map.2 ⟨(names.idxOf f, ix), mem_of_find hx, by simp [List.getD, hi]⟩
  · rw [List.map_map]
    apply List.map_congr_left
    intro p hp
    obtain ⟨f, _, e1, e2, _⟩ := hname p hp
    simp only [Function.comp_def, e1, e2, hfind p hp, Option.elim_some]
  · intro f hf
    obtain ⟨p, hp, rfl⟩ := List.mem_map.1 hf
    obtain ⟨f, _, e1, e2, _, g, hi, _⟩ := hname p hp
    simp only [e1, e2, hfind p hp, Option.elim_some]
    refine room hi.tinv fun r => ?_
    rw [hi.paths r]
    simp only [fieldHistory, List.mem_map]
    constructor
    · rintro (h | ⟨_, ⟨w, hw, rfl⟩, hr⟩)
      · exact Or.inl h
      · exact Or.inr ⟨w, hw, hr⟩
    · rintro (h | ⟨w, hw, hr⟩)
      · exact Or.inl h
      · exact Or.inr ⟨_, ⟨w, hw, rfl⟩, hr⟩

end
end Columbus.Life
