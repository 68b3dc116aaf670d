import Verif.Proofs.Resources
import Verif.Props.Example
/-
C86: what tries take from the system and what they give back.
-/

namespace Columbus.Props
open Columbus Columbus.Res Spec

/-- C86, what holds of every program that makes tries, inserts words, looks words up and destroys tries, catching the
exceptions, whatever the system refuses: a trie that is alive has its private part and its file; a destroyed one has given
both back. Missing from the full claim: the mapping, and tries whose constructor threw (below). -/
theorem C86_partial [Build] (ops : List Op) (p : Proc) (h : run ops [] = .ok p) (life : Life) (o : Obj) (hx : (life, o) ∈ p) :
    (life = .alive → o.priv = true ∧ o.file = true) ∧ (life = .ended → o.priv = false ∧ o.file = false) := by
  have he := entry_run (fun x hx => by cases hx) h _ hx
  constructor
  · rintro rfl; exact ⟨he.1, he.2.1⟩
  · rintro rfl; exact ⟨he.1, he.2.1⟩

/-- C86. A trie whose constructor threw was refused something, and its private part is never freed; its file stays open
if it got one. It has no mapping. -/
theorem C86_refused [Build] (ops : List Op) (p : Proc) (h : run ops [] = .ok p) (o : Obj) (hx : (Life.failed, o) ∈ p) :
    (o.sys.tmpfile = false ∨ (o.sys.expand 0).truncate = false ∨ (o.sys.expand 0).map = false) ∧
    o.priv = true ∧ (o.file = true ↔ o.sys.tmpfile = true) ∧ ∀ n, o.map ≠ .live n := by
  obtain ⟨h1, h2, h3, h4⟩ := entry_run (fun x hx => by cases hx) h _ hx
  have h2' : o.file = o.sys.tmpfile := h2
  have h4' : ¬ (o.sys.tmpfile = true ∧ granted o.sys 0 = true) := h4
  refine ⟨?_, h1, by rw [h2'], h3⟩
  unfold granted at h4'
  cases ht : o.sys.tmpfile with
  | false => exact Or.inl rfl
  | true =>
    right
    cases hx : (o.sys.expand 0).truncate with
    | false => exact Or.inl rfl
    | true =>
      right
      cases hy : (o.sys.expand 0).map with
      | false => rfl
      | true => rw [ht, hx, hy] at h4'; simp at h4'

/-- C86. The mapping of a constructed trie, alive or destroyed: its length is 1024 doubled once for each later call of
`expand` that got all it asked for; or the last call has taken it away and made no new one. Destroying a trie does not
unmap. -/
theorem C86_mapping [Build] (ops : List Op) (p : Proc) (h : run ops [] = .ok p) (life : Life) (o : Obj) (hx : (life, o) ∈ p)
    (hl : life ≠ .failed) :
    (∃ j, j ≤ 21 ∧ grants o.sys o.calls = j + 1 ∧ o.map = .live (1024 * 2^j)) ∨ (o.map = .gone ∧ Lost o) := by
  have he := entry_run (fun x hx => by cases hx) h _ hx
  have hs : Sized o := by
    cases life with
    | failed => exact absurd rfl hl
    | alive => exact he.2.2.1
    | ended => exact he.2.2.1
  rcases hs with ⟨j, h1, h2, _, h3⟩ | h
  · exact Or.inl ⟨j, h1, h2, h3⟩
  · exact Or.inr h

/-- C86. When all tries of a program have been destroyed and the system refused nothing, no private part and no file is
held, and one mapping for each trie that was ever made (unless a file grew beyond 2^31 bytes). -/
theorem C86_count [Build] (ops : List Op) (p : Proc) (h : run ops [] = .ok p) (hall : ∀ x ∈ p, x.1 = .ended)
    (hg : ∀ x ∈ p, Generous x.2.sys ∧ x.2.calls ≤ 22) :
    privates p = 0 ∧ files p = 0 ∧ (mappings p).length = p.length := by
  have he := entry_run (fun x hx => by cases hx) h
  refine ⟨?_, ?_, ?_⟩
  · unfold privates
    rw [List.countP_eq_zero]
    rintro ⟨life, o⟩ hx hp
    obtain rfl : life = .ended := hall _ hx
    have hq : o.priv = false := (he _ hx).1
    rw [hq] at hp; cases hp
  · unfold files
    rw [List.countP_eq_zero]
    rintro ⟨life, o⟩ hx hp
    obtain rfl : life = .ended := hall _ hx
    have hq : o.file = false := (he _ hx).2.1
    rw [hq] at hp; cases hp
  · have hlive : ∀ x ∈ p, ∃ n, x.2.map = .live n := by
      rintro ⟨life, o⟩ hx
      rcases C86_mapping ops p h life o hx (by rw [show life = .ended from hall _ hx]; simp) with ⟨j, _, _, hm⟩ | ⟨_, k, h1, _, h2⟩
      · exact ⟨_, hm⟩
      · exfalso
        obtain ⟨⟨_, h4⟩, h5⟩ := hg _ hx
        have h4' : ∀ k, o.sys.expand k = ⟨true, true, true⟩ := h4
        have h5' : o.calls ≤ 22 := h5
        rw [h4'] at h2
        simp only [Bool.true_eq_false, false_or] at h2
        unfold grants at h2
        have := List.countP_le_length (p := granted o.sys) (l := List.range k)
        rw [h2, List.length_range] at this
        omega
    unfold mappings
    clear * - hlive
    induction p with
    | nil => rfl
    | cons x p ih =>
      obtain ⟨n, hn⟩ := hlive x (by simp)
      rw [List.filterMap_cons]
      simp only [hn, List.length_cons, ih (fun y hy => hlive y (by simp [hy]))]

/-- C86. How much stays mapped: a trie is made, given words, and destroyed, on a system that refuses nothing. The mapping
that is left has the least length, of 1024 and its doublings, above 4 bytes and 32 for each distinct prefix of the words (the
empty one included). -/
theorem C86_size [Build] (sys : System) (hg : Generous sys) (h : IndexHistory) (ho : IndexHistory.Ok h)
    (hb : 36 + 32 * (h.map fun p => p.1.length).sum < 2^31) (prefixes : List Word) (hnd : prefixes.Nodup)
    (hmem : ∀ r, r ∈ prefixes ↔ r = [] ∨ ∃ p ∈ h, r <+: p.1) :
    ∃ o j, run (.make sys :: (h.map (fun p => .insert 0 p.1 p.2) ++ [.destroy 0])) [] = .ok [(.ended, o)] ∧
      o.priv = false ∧ o.file = false ∧ o.map = .live (1024 * 2^j) ∧ 4 + 32 * prefixes.length < 1024 * 2^j ∧
      ∀ i, 4 + 32 * prefixes.length < 1024 * 2^i → j ≤ i := by
  have hlike : Like sys (fun _ => true) := by
    intro k
    unfold granted
    rw [hg.2]; simp
  have step_insert : ∀ (o : Obj) (w : Word) (id : WordID) (r : Obj × M Nat), Res.insertWord w id o = r →
      (∀ e, r.2 = .error e → caught e = true) → step [(.alive, o)] (.insert 0 w id) = .ok [(.alive, r.1)] := by
    intro o w id r hr hc
    rcases r with ⟨o', e | a⟩
    · simp only [step, List.getElem?_cons_zero, hr, hc e rfl, if_true, List.set_cons_zero]
    · simp only [step, List.getElem?_cons_zero, hr, List.set_cons_zero]
  have loop : ∀ (rest done : IndexHistory) (ix : LevIndex) (g : Ghost) (o : Obj), h = done ++ rest → LInv ix g done →
      Agree o ix.trie → Snug ix.trie → (∀ n, ix.trie.os n = true) → Entry (.alive, o) →
      g.n ≤ 1 + (done.map fun p => p.1.length).sum →
      ∃ ix' g' o', run (rest.map (fun p => .insert 0 p.1 p.2)) [(.alive, o)] = .ok [(.alive, o')] ∧ LInv ix' g' h ∧
        Agree o' ix'.trie ∧ Snug ix'.trie := by
    intro rest
    induction rest with
    | nil =>
      intro done ix g o hd hi ha hs _ _ _
      rw [List.append_nil] at hd
      subst hd
      exact ⟨ix, g, o, rfl, hi, ha, hs⟩
    | cons p rest ih =>
      rintro done ix g o hd hi ha hs hos he hn
      obtain ⟨w, id⟩ := p
      have hd' : h = (done ++ [(w, id)]) ++ rest := by rw [hd]; simp
      have ho' : IndexHistory.Ok (done ++ [(w, id)]) := ho.sub (by rw [hd']; intro p hp; exact List.mem_append_left _ hp)
      have hnul : ∀ l ∈ w, l ≠ 0#16 := ho'.noNul (w, id) (by simp)
      have hsum : (h.map fun p => p.1.length).sum = (done.map fun p => p.1.length).sum + w.length + (rest.map fun p => p.1.length).sum := by
        rw [hd]; simp; omega
      have hsum' : ((done ++ [(w, id)]).map fun p => p.1.length).sum = (done.map fun p => p.1.length).sum + w.length := by simp
      rcases hi.insert ho' with ⟨_, hr⟩ | ⟨ix', g', e, hi', hn', hos', _⟩
      · exfalso
        rcases hr with hr | ⟨s, _, _, _, _, hr⟩
        · omega
        · rw [hos] at hr; cases hr
      · -- the object does the same
        have hsim := sim_insertWord hi.tinv ha hnul id
        have key : (∀ e, (Res.insertWord w id o).2 = .error e → caught e = true) ∧ Agree (Res.insertWord w id o).1 ix'.trie ∧
            Snug ix'.trie := by
          by_cases hw : w = []
          · subst hw
            rw [LevIndex.insertWord, if_pos List.length_nil] at e
            cases e
            have hx : Res.insertWord [] id o = (o, .error .outOfRange) := rfl
            rw [hx]
            exact ⟨fun e he => by cases he; rfl, ha, hs⟩
          · rw [LevIndex.insertWord, if_neg (by simpa using hw)] at e
            rcases hx : ix.trie.insertWord w id with e' | ⟨t', a⟩
            · rw [hx] at e; cases e
            · rw [hx] at e hsim
              cases e
              refine ⟨fun e he => ?_, hsim.2, insertWord_snug hi.tinv hnul hs hx⟩
              rw [hsim.1] at he; cases he
        obtain ⟨ix2, g2, o2, e2, r2⟩ := ih (done ++ [(w, id)]) ix' g' (Res.insertWord w id o).1 hd' hi' key.2.1 key.2.2
          (by rw [hos']; exact hos) (entry_insert he w id) (by rw [hsum']; omega)
        refine ⟨ix2, g2, o2, ?_, r2⟩
        rw [List.map_cons, run, step_insert o w id _ rfl key.1, ok_bind]
        exact e2
  -- making the trie
  rcases sim_construct hlike with ⟨h1, _⟩ | ⟨_, h2, _⟩ | ⟨h1, h2, o, t, h3, h4, h5, h6, h7, h8, h9⟩
  · rw [hg.1] at h1; cases h1
  · have : granted sys 0 = true := (hlike 0).symm
    rw [this] at h2; cases h2
  · have hnew : LevIndex.new (fun _ => true) = .ok ⟨[], 0, 0, t⟩ := by rw [LevIndex.new, h4]; rfl
    rcases LInv.new (fun _ => true) with ⟨hf, _⟩ | ⟨ix, e, hi, hos, _⟩
    · cases hf
    · rw [hnew] at e
      cases e
      obtain ⟨ix', g', o', e', hi', ha', hs'⟩ := loop h [] _ _ o rfl hi h5 (new_snug h4) (fun n => by rw [hos])
        ⟨h6, h7, h9, by rw [h8]; exact h1, by rw [h8]; exact h2⟩ (Nat.le_refl 1)
      have hrun : ∀ (a b : List Op) (p q : Proc), run a p = .ok q → run (a ++ b) p = run b q := by
        intro a b
        induction a with
        | nil => intro p q hq; cases hq; rfl
        | cons op a ih =>
          intro p q hq
          rw [run] at hq
          rw [List.cons_append, run]
          rcases hs : step p op with e | p1
          · rw [hs] at hq; cases hq
          · rw [hs, ok_bind] at hq
            rw [ok_bind]
            exact ih p1 q hq
      have hmake : step [] (.make sys) = .ok [(.alive, o)] := by simp only [step, h3, List.nil_append]
      have hn : prefixes.length = g'.n := by
        have hp : ((List.range g'.n).map g'.path).Perm prefixes := by
          rw [List.perm_ext_iff_of_nodup _ hnd]
          · intro r
            rw [List.mem_map, hmem, ← hi'.paths r]
            simp only [List.mem_range]
          · apply List.Nodup.map_on _ List.nodup_range
            intro a ha b hb hab
            exact hi'.tinv.path_inj a b (List.mem_range.1 ha) (List.mem_range.1 hb) hab
        have := hp.length_eq
        simpa using this.symm
      obtain ⟨j, hj, hc⟩ := ha'.calls
      have hlt := hi'.tinv.hdr.lt
      have hfree := hi'.tinv.hdr.free_eq
      refine ⟨(Res.destroy o').1, j, ?_, rfl, rfl, ?_, by omega, ?_⟩
      · rw [run, hmake, ok_bind, hrun _ _ _ _ e']
        rfl
      · show o'.map = _
        rw [ha'.map, hj]
      · intro i hi2
        rcases Nat.lt_or_ge i j with hij | hij
        · exfalso
          have hp : 2^(i+1) ≤ 2^j := Nat.pow_le_pow_right (by omega) hij
          rw [Nat.pow_succ] at hp
          have h1 : 1 ≤ 2^i := Nat.one_le_two_pow
          rcases hs' with hs' | hs'
          · omega
          · rw [hfree] at hs'; omega
        · exact hij

/-- A word of 40 letters has 41 prefixes: one doubling, and 2048 bytes stay mapped. -/
theorem C86_example [Build] : ∃ p, run [.make ⟨true, fun _ => ⟨true, true, true⟩⟩, .insert 0 (List.replicate 40 0x61#16) 7, .destroy 0] [] = .ok p ∧
    privates p = 0 ∧ files p = 0 ∧ mappings p = [2048] := by
  obtain ⟨o, j, h1, h2, h3, h4, h5, h6⟩ := C86_size ⟨true, fun _ => ⟨true, true, true⟩⟩ ⟨rfl, fun _ => rfl⟩
    [(List.replicate 40 0x61#16, 7)]
    ⟨by intro p hp l hl; simp only [List.mem_singleton] at hp; subst hp; rw [List.eq_of_mem_replicate hl]; decide,
     by intro p hp l hl; simp only [List.mem_singleton] at hp; subst hp
        rw [List.eq_of_mem_replicate (List.mem_of_mem_head? hl)]; decide,
     by intro p hp; simp only [List.mem_singleton] at hp; subst hp; show 7 < INVALID_WORDID; decide,
     by intro p hp r hr; simp only [List.mem_singleton] at hp hr; subst hp; subst hr; simp⟩ (by decide)
    ((List.range 41).map fun n => List.replicate n 0x61#16)
    (by
      apply List.Nodup.map_on _ List.nodup_range
      intro a _ b _ hab
      simpa using congrArg List.length hab)
    (by
      intro r
      simp only [List.mem_map, List.mem_range, List.mem_singleton, exists_eq_left]
      constructor
      · rintro ⟨n, hn, rfl⟩
        right
        exact ⟨List.replicate (40 - n) 0x61#16, by rw [← List.replicate_add]; congr 1; omega⟩
      · rintro (rfl | ⟨s, hs⟩)
        · exact ⟨0, by decide, rfl⟩
        · have hl := congrArg List.length hs
          simp only [List.length_append, List.length_replicate] at hl
          refine ⟨r.length, by omega, ?_⟩
          rw [eq_comm, List.eq_replicate_iff]
          refine ⟨rfl, fun b hb => ?_⟩
          exact List.eq_of_mem_replicate (n := 40) (by rw [← hs]; exact List.mem_append_left _ hb))
  simp only [List.length_map, List.length_range] at h5 h6
  have hj : j = 1 := by
    have := h6 1 (by decide)
    have : j ≠ 0 := by rintro rfl; exact absurd h5 (by decide)
    omega
  subst hj
  refine ⟨_, h1, ?_, ?_, ?_⟩
  · simp [privates, h2]
  · simp [files, h3]
  · simp [mappings, h4]

/-- C86 is false as stated: a trie that is made and destroyed at once leaves 1024 bytes mapped. -/
theorem C86_false [Build] : ∃ p, run [.make ⟨true, fun _ => ⟨true, true, true⟩⟩, .destroy 0] [] = .ok p ∧
    privates p = 0 ∧ files p = 0 ∧ mappings p = [1024] := by
  obtain ⟨o, j, h1, h2, h3, h4, h5, h6⟩ := C86_size ⟨true, fun _ => ⟨true, true, true⟩⟩ ⟨rfl, fun _ => rfl⟩ []
    ⟨by simp, by simp, by simp, by simp⟩ (by decide) [[]] (by simp) (by simp)
  have hj : j = 0 := by
    have := h6 0 (by decide)
    omega
  subst hj
  refine ⟨_, h1, ?_, ?_, ?_⟩
  · simp [privates, h2]
  · simp [files, h3]
  · simp [mappings, h4]

/-- C86 is false of a constructor that throws: refused the file it loses its private part, refused the first mapping also
its file. -/
theorem C86_refused_false [Build] :
    (∃ p, run [.make ⟨false, fun _ => ⟨true, true, true⟩⟩] [] = .ok p ∧ privates p = 1 ∧ files p = 0 ∧ mappings p = []) ∧
    (∃ p, run [.make ⟨true, fun _ => ⟨true, true, false⟩⟩] [] = .ok p ∧ privates p = 1 ∧ files p = 1 ∧ mappings p = []) :=
  ⟨⟨_, rfl, rfl, rfl, rfl⟩, ⟨_, rfl, rfl, rfl, rfl⟩⟩

/-- C86. For each system there are answers per size, as Model/Trie.lean asks for them. -/
theorem C86_oracle (sys : System) : ∃ os, Like sys os := like_exists sys

/-- C86. Model/Trie.lean gives the outcome of every history on every system that grants the file: the same result, the same
trie, and the same first exception; after `runtime_error` there is no mapping, or `munmap` was refused. -/
theorem C86_agrees [Build] (sys : System) (ht : sys.tmpfile = true) (os : Nat → Bool) (hl : Like sys os) (h : IndexHistory)
    (ho : IndexHistory.Ok h) :
    match Trie.new os >>= fun t => insertAllTrie t h with
    | .ok t => ∃ o, (construct >>= fun _ => Res.insertAll h) (blank sys) = (o, .ok ()) ∧ o.view os = t ∧ o.map = .live t.mapped
    | .error e => ∃ o, (construct >>= fun _ => Res.insertAll h) (blank sys) = (o, .error e) ∧
        (e = .runtimeError → (∀ n, o.map ≠ .live n) ∨ ∃ k, o.calls = k + 1 ∧ (o.sys.expand k).unmap = false) := by
  have loop : ∀ (rest done : IndexHistory) (ix : LevIndex) (g : Ghost) (o : Obj), h = done ++ rest → LInv ix g done →
      Agree o ix.trie → SimU (Res.insertAll rest o) (insertAllTrie ix.trie rest) ∧
        ∀ t', insertAllTrie ix.trie rest = .ok t' → t'.os = ix.trie.os := by
    intro rest
    induction rest with
    | nil => intro done ix g o _ _ ha; exact ⟨⟨rfl, ha⟩, fun t' e => by cases e; rfl⟩
    | cons p rest ih =>
      rintro done ix g o hd hi ha
      obtain ⟨w, id⟩ := p
      have hd' : h = (done ++ [(w, id)]) ++ rest := by rw [hd]; simp
      have ho' : IndexHistory.Ok (done ++ [(w, id)]) := ho.sub (by rw [hd']; intro p hp; exact List.mem_append_left _ hp)
      have hnul : ∀ l ∈ w, l ≠ 0#16 := ho'.noNul (w, id) (by simp)
      have hsim := sim_insertWord hi.tinv ha hnul id
      unfold Res.insertAll insertAllTrie
      rcases hx : ix.trie.insertWord w id with e | ⟨t', a⟩
      · rw [hx] at hsim
        rw [bind_error (Prod.ext rfl hsim.1 : Res.insertWord w id o = ((Res.insertWord w id o).1, .error e)), error_bind]
        exact ⟨⟨rfl, hsim.2⟩, fun t' e => by cases e⟩
      · rw [hx] at hsim
        rw [bind_ok (Prod.ext rfl hsim.1 : Res.insertWord w id o = ((Res.insertWord w id o).1, .ok a)), ok_bind]
        rcases hi.insert ho' with ⟨e, _⟩ | ⟨ix', g', e, hi', _, hos, _⟩
        · exfalso
          rw [LevIndex.insertWord] at e
          split at e
          · cases e
          · rw [hx] at e; cases e
        · have htr : ix'.trie = t' := by
            rw [LevIndex.insertWord] at e
            split at e
            · rename_i hw
              rw [List.length_eq_zero_iff] at hw
              subst hw
              cases hx
            · rw [hx] at e; cases e; rfl
          have := ih (done ++ [(w, id)]) ix' g' (Res.insertWord w id o).1 hd' hi' (by rw [htr]; exact hsim.2)
          rw [htr] at this hos
          exact ⟨this.1, fun t'' e => (this.2 t'' e).trans hos⟩
  rcases sim_construct hl with ⟨h1, _⟩ | ⟨_, h2, o, h3, _, _, h6, _⟩ | ⟨h1, h2, o, t, h3, h4, h5, _⟩
  · rw [ht] at h1; cases h1
  · have hos : os 1024 = false := by rw [← h2]; exact hl 0
    have hn : Trie.new os = .error .runtimeError := by simp [Trie.new, hos]
    rw [hn, error_bind]
    exact ⟨o, bind_error h3, fun _ => Or.inl h6⟩
  · rw [h4, ok_bind]
    have hnew : LevIndex.new os = .ok ⟨[], 0, 0, t⟩ := by rw [LevIndex.new, h4]; rfl
    rcases LInv.new os with ⟨hf, _⟩ | ⟨ix, e, hi, hos, _⟩
    · rw [show os 1024 = true from (hl 0).trans h2] at hf; cases hf
    · rw [hnew] at e
      cases e
      obtain ⟨hs, hos'⟩ := loop h [] _ _ o rfl hi h5
      simp only at hs hos'
      have hb := bind_ok (f := fun _ => Res.insertAll h) h3
      rcases hx : insertAllTrie t h with e | t'
      · rw [hx] at hs
        refine ⟨_, hb.trans (Prod.ext rfl hs.1), fun he => ?_⟩
        rcases hs.2 he with hd | ⟨k, k1, _, k2⟩
        · left; intro n; rw [hd]; simp
        · right; exact ⟨k, k1, k2⟩
      · rw [hx] at hs
        refine ⟨_, hb.trans (Prod.ext rfl hs.1), ?_, hs.2.map⟩
        rw [← hos, ← hos' t' hx]
        exact hs.2.view

end Columbus.Props
