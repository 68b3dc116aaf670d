import Verif.Props.SubstringSearch
import Verif.Proofs.Cheaper
/-
C120: settings under which mistakes cost less.
-/

namespace Columbus.Props
open Columbus Spec ErrorValues

section
variable [Build] [Icu] [Runtime] [Fp] {os : Nat → Bool} {m : Matcher} {H : MatcherHistory} {K : List Word}

/-! ### C120 -/

omit [Build] [Icu] [Runtime] [Fp] in
/-- C120. A word found within a limit is found within it, with no higher error, when no price is higher. -/
theorem C120_price {c c' : EditCosts} (h : NoDearer c' c) (q w : Word) (v v' : Int) (hv : IsEditCost c q w v)
    (hv' : IsEditCost c' q w v') : v' ≤ v := by
  obtain ⟨u, hu, hs⟩ := script_cheaper h hv.1
  exact le_trans (hv'.2 u hs) hu

/-- C120. With settings of which no price is higher, for the lengths of the words searched for, a search lists every document again,
with no lower relevancy in double arithmetic, if no weight is negative. -/
theorem C120_cheaper (h : Ran os m H K) (e' : ErrorValues) (ops : List ErrOp) (h' : e' = afterOps ops) (q : WordList) (p : SearchParameters)
    (hc : ∀ x ∈ q, NoDearer (configured e' x.length) (configured m.e x.length)) (hs : Sane m.e q H) (hs' : Sane e' q H)
    (hw : ∀ f, 0 ≤ IndexWeights.getWeight m.weights f) (hu : ∀ w ∈ filterWords p.filter, Usable w)
    (m1 m2 : Matcher) (r r' : MatchResults) (k k' : List Result) (e : m.matchQuery q p = (m1, .ok r)) (hk : Shows r k)
    (e2 : ({ m with e := e' } : Matcher).matchQuery q p = (m2, .ok r')) (hk' : Shows r' k') :
    ∀ rel d, (rel, d) ∈ k → ∃ rel', (rel', d) ∈ k' ∧ rel ≤ rel' := by
  obtain ⟨names, hi, _⟩ := Ran.start h
  have hi' : MInv { m with e := e' } H names :=
    ⟨hi.store, hi.known, hi.ixs, hi.has, hi.keys, hi.post, hi.docs, hi.sizes, ⟨ops, h'⟩, hi.stats⟩
  obtain ⟨docs, ha, _, rfl⟩ := answer_shows hi hs hu e hk
  obtain ⟨docs', ha', _, rfl⟩ := answer_shows hi' hs' hu e2 hk'
  intro rel d hd
  obtain ⟨h1, h2⟩ := List.mem_filter.1 hd
  obtain ⟨rel', h3, h4⟩ := answer_closer hs'.nonNeg hw (fun i j v => Columbus.QueryHits.cheaper hc) ha ha' (mem_listing.1 h1)
  exact ⟨rel', List.mem_filter.2 ⟨mem_listing.2 h3, h2⟩, h4⟩

omit [Runtime] [Fp] in
/-- C120. Preset settings are no dearer than the default. -/
theorem C120_preset_prices (ops : List ErrOp) (hops : ∀ op ∈ ops, op.Preset) (n : Nat) :
    NoDearer (configured (afterOps ops) n) (configured .new n) := by
  have hp := presetMade_afterOps hops
  obtain ⟨⟨_, b1⟩, ⟨_, b2⟩, ⟨_, b3⟩, ⟨_, b4⟩, ⟨_, b5⟩, ⟨_, b6⟩, b7⟩ := hp.within n
  rw [new_is_default, configured_default]
  refine ⟨b1, b2, b3, b4, b5, b6, fun a b => ?_⟩
  by_cases hab : a = b
  · subst hab
    have : (configured (afterOps ops) n).sub a a = 0 := by
      show (match (afterOps ops).getSubstituteError a a with | .ok v => v | .error _ => 0) = 0
      rw [hp.self a]
    rw [this]
    simp [unitCosts]
  · have : unitCosts.sub a b = 100 := by simp [unitCosts, hab]
    rw [this]
    exact (b7 a b).2

/-- C120. Preset operations, such as accents, keyboard neighbours and substring mode, lose no document of a search and lower no
relevancy, in comparison with the settings a matcher begins with. -/
theorem C120_preset (h : Ran os m H K) (hd : m.e = .new) (ops : List ErrOp) (hops : ∀ op ∈ ops, op.Preset) (q : WordList)
    (p : SearchParameters) (hq : ∀ x ∈ q, Usable x ∧ x.length ≤ 10000000) (hH : ∀ w ∈ H.words, w.length ≤ 10000000)
    (hw : ∀ f, 0 ≤ IndexWeights.getWeight m.weights f) (hu : ∀ w ∈ filterWords p.filter, Usable w)
    (m1 m2 : Matcher) (r r' : MatchResults) (k k' : List Result) (e : m.matchQuery q p = (m1, .ok r)) (hk : Shows r k)
    (e2 : ({ m with e := afterOps ops } : Matcher).matchQuery q p = (m2, .ok r')) (hk' : Shows r' k') :
    ∀ rel d, (rel, d) ∈ k → ∃ rel', (rel', d) ∈ k' ∧ rel ≤ rel' := by
  have hsane : ∀ {e}, PresetMade e → Sane e q H := fun hp =>
    hp.sane (fun x hx => usable_noNul (hq x hx).1) (L := 10000000) (fun x hx => (hq x hx).2) hH (le_refl _)
  refine C120_cheaper h (afterOps ops) ops rfl q p (fun x _ => ?_) ?_ (hsane (presetMade_afterOps hops)) hw hu m1 m2 r r' k k' e hk e2 hk'
  · rw [hd]; exact C120_preset_prices ops hops _
  · rw [hd]; exact hsane presetMade_new

/-- "sa" -/
def Example.sa : Word := [0x73#16, 0x61#16]

/-- The documents of the example in substring mode: "sa" and "save" are 30 apart. -/
example : ∃ (m : Matcher) (r r' : MatchResults) (k k' : List Result), Ran Example.os m Example.texts [] ∧ m.e = .new ∧
    (∀ op ∈ [ErrOp.setSubstringMode], op.Preset) ∧ (∀ f, 0 ≤ IndexWeights.getWeight m.weights f) ∧
    m.matchQuery [Example.sa] .new = (m, .ok r) ∧ Shows r k ∧
    ({ m with e := afterOps [.setSubstringMode] } : Matcher).matchQuery [Example.sa] .new =
      ({ m with e := afterOps [.setSubstringMode] }, .ok r') ∧ Shows r' k' ∧ 1 ∈ k.map (·.2) ∧
    IsEditCost (configured (afterOps [.setSubstringMode]) 2) (Example.sa) Example.save 30 := by
  obtain ⟨m, h, he, hw⟩ := Example.ran
  have hp : ∀ op ∈ [ErrOp.setSubstringMode], op.Preset := by simp [ErrOp.Preset]
  have hpm := presetMade_afterOps hp
  have hsane : ∀ {e}, PresetMade e → Sane e [Example.sa] Example.texts := fun hp =>
    hp.sane (by simp [Example.sa]) (L := 100) (by simp [Example.sa]) (by decide) (by norm_num)
  have c1 : best (configured m.e 2) Example.sa Example.save ≤ 200 := by
    rw [he, new_is_default, configured_default]
    exact best_substring (c := unitCosts) (q := Example.sa) [] [0x76#16, 0x65#16] (by simp [Example.sa]) (by simp [unitCosts])
  have c2 : IsEditCost (configured (afterOps [.setSubstringMode]) 2) Example.sa Example.save 30 :=
    C118_price Example.sa [] [0x76#16, 0x65#16] (Or.inr ⟨by simp [Example.sa], rfl⟩)
  have h' : Ran Example.os { m with e := afterOps [.setSubstringMode] } Example.texts [] := by
    have e0 : (ErrOp.run m.e .setSubstringMode).1 = afterOps [.setSubstringMode] := by rw [he]; rfl
    rw [← e0]
    exact Ran.errors .setSubstringMode h
  obtain ⟨r, k, e, hk, hm⟩ := C44_found h [Example.sa] .new (by rw [he]; exact hsane presetMade_new)
    (by rw [he]; exact presetMade_new.exact _) rfl
  obtain ⟨r', k', e', hk', _⟩ := C44_found h' [Example.sa] .new (hsane hpm) (hpm.exact _) rfl
  refine ⟨m, r, r', k, k', h, he, hp, by rw [hw]; intro f; simp [IndexWeights.getWeight, SMap.find], e, hk, e', hk', ?_, c2⟩
  exact (hm 1).2 ⟨Example.title, Example.save, _, _, ⟨_, List.mem_cons_self, rfl, rfl, List.mem_cons_self⟩, rfl, List.mem_singleton.2 rfl, best_isEditCost, c1⟩

end
end Columbus.Props
