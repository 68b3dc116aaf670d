import Verif.Proofs.RefusedTree
import Verif.Props.Resources
/-
C97: what is left of a trie after the system has refused something.
-/

namespace Columbus.Props
open Columbus Columbus.Res Spec

/-- C97, what holds: words are inserted into a new trie by a program that catches `runtime_error` and goes on, and at the end
the trie has not lost its mapping. It has exactly the words whose insertion came back, and counts them; and as many
insertions failed as `munmap`s were refused. Missing from the full claim: a trie that was refused `ftruncate` or `mmap` has
lost its mapping (`C97_lost`, `C97_false`). -/
theorem C97_partial [Build] (sys : System) (o0 : Obj) (hc : construct (blank sys) = (o0, .ok ())) (h : IndexHistory)
    (ho : IndexHistory.Ok h) (hne : ∀ p ∈ h, p.1 ≠ []) (o : Obj) (bs : List Bool) (hr : tryAll h o0 = (o, .ok bs)) (hm : o.map ≠ .gone) :
    bs.length = h.length ∧ bs.count false = denied o ∧
    (∀ w : Word, (∀ l ∈ w, l ≠ 0#16) → ∃ b, (o.view fun _ => false).hasWord w = .ok b ∧ (b = true ↔ ∃ id, ((w, id), true) ∈ h.zip bs)) ∧
    ∃ ws : List Word, ws.Nodup ∧ (∀ w, w ∈ ws ↔ ∃ id, ((w, id), true) ∈ h.zip bs) ∧
      (o.view fun _ => false).numWords = .ok ws.length := by
  obtain ⟨hg, hpos, hd, hs⟩ := start_inv hc
  rcases tryAll_cases h o0 _ _ _ [] hg hpos (fun v i => by simp [init_has]) ho hne with
    ⟨o', bs', g', ad', free', e, hl, h', hh, hden, hs'⟩ | ⟨o', e, hgone, _⟩
  · rw [hr] at e
    cases e
    refine ⟨hl, by rw [hden, hd, Nat.zero_add], ?_, ?_⟩
    · intro w hw
      obtain ⟨b, e, hb⟩ := h'.hasWord_spec w hw
      refine ⟨b, ?_, ?_⟩
      · rw [← e]
        have hfind : ∀ (w : List Letter) (a : Nat), (o.view fun _ => false).findLoop a w = (vw o).findLoop a w := by
          intro w
          induction w with
          | nil => intro a; rfl
          | cons l w ih =>
            intro a
            unfold Trie.findLoop
            rw [walk_os (t := o.view fun _ => false) (t' := vw o) rfl rfl]
            simp only [ih]
            rfl
        unfold Trie.hasWord Trie.findWord
        rw [hfind]
        rfl
      · rw [hb]
        simp only [hh, List.not_mem_nil, false_or]
    · obtain ⟨ws, h1, h2, h3⟩ := h'.words
      refine ⟨ws, h1, ?_, ?_⟩
      · intro w
        rw [h2]
        simp only [hh, List.not_mem_nil, false_or]
      · have := h'.numWords
        rw [h3] at this
        exact this
  · rw [hr] at e
    have : o = o' := e
    exact absurd (by rw [this]; exact hgone) hm

/-- C97. If the system never refuses `ftruncate` or `mmap`, and the words have room in 2^31 bytes, the mapping is never lost:
all insertions are tried. -/
theorem C97_kept [Build] (sys : System) (o0 : Obj) (hc : construct (blank sys) = (o0, .ok ())) (h : IndexHistory)
    (ho : IndexHistory.Ok h) (hne : ∀ p ∈ h, p.1 ≠ []) (hs : ∀ k, (sys.expand k).truncate = true ∧ (sys.expand k).map = true)
    (hb : 36 + 32 * (h.map fun p => p.1.length).sum < 2^31) :
    ∃ o bs, tryAll h o0 = (o, .ok bs) ∧ o.map ≠ .gone := by
  obtain ⟨hg, hpos, hd, hsys⟩ := start_inv hc
  rcases tryAll_cases h o0 _ _ _ [] hg hpos (fun v i => by simp [init_has]) ho hne with
    ⟨o', bs', g', ad', free', e, hl, h', hh, hden, hs'⟩ | ⟨o', e, hgone, hbad, _⟩
  · refine ⟨o', bs', e, ?_⟩
    rw [live_of_hdr h'.hdr]; simp
  · rcases hbad with ⟨k, hk⟩ | hbad
    · rw [hsys] at hk
      obtain ⟨h1, h2⟩ := hs k
      rcases hk with hk | hk
      · rw [h1] at hk; cases hk
      · rw [h2] at hk; cases hk
    · omega

/-- C97. The same for whatever the system refuses: all insertions are tried and the mapping is there; or the mapping was lost,
and either this happened at the last insertion or the next one was undefined behaviour. There is no other outcome. -/
theorem C97_outcomes [Build] (sys : System) (o0 : Obj) (hc : construct (blank sys) = (o0, .ok ())) (h : IndexHistory)
    (ho : IndexHistory.Ok h) (hne : ∀ p ∈ h, p.1 ≠ []) :
    (∃ o bs, tryAll h o0 = (o, .ok bs) ∧ o.map ≠ .gone) ∨
    (∃ o bs, tryAll h o0 = (o, .ok bs) ∧ o.map = .gone ∧ bs.getLast? = some false) ∨
    (∃ o, tryAll h o0 = (o, .error .ub) ∧ o.map = .gone) := by
  obtain ⟨hg, hpos, hd, hsys⟩ := start_inv hc
  rcases tryAll_cases h o0 _ _ _ [] hg hpos (fun v i => by simp [init_has]) ho hne with
    ⟨o', bs', g', ad', free', e, hl, h', hh, hden, hs'⟩ | ⟨o', e, hgone, _, hres⟩
  · left
    refine ⟨o', bs', e, ?_⟩
    rw [live_of_hdr h'.hdr]; simp
  · right
    rcases hres with hres | ⟨bs, hres, hlast⟩
    · right; exact ⟨o', Prod.ext e hres, hgone⟩
    · left; exact ⟨o', bs, Prod.ext e hres, hgone, hlast⟩

/-- C97. A trie that has lost its mapping: whatever the program did before, to insert or look up any word or to ask for the
numbers is undefined behaviour. It can be destroyed. -/
theorem C97_lost [Build] (ops : List Op) (p : Proc) (h : run ops [] = .ok p) (i : Nat) (o : Obj) (hi : p[i]? = some (.alive, o))
    (hm : o.map = .gone) :
    (∀ w : Word, w ≠ [] → run (ops ++ [.find i w]) [] = .error .ub) ∧
    (∀ (w : Word) (id : WordID), w ≠ [] → (∀ l, w.head? = some l → isLowSurrogate l = false) →
      run (ops ++ [.insert i w id]) [] = .error .ub) ∧
    (o.view fun _ => false).numWords = .error .ub ∧ (o.view fun _ => false).numNodes = .error .ub ∧
    ∃ p', run (ops ++ [.destroy i]) [] = .ok p' := by
  have hrun : ∀ (ops : List Op) (p0 : Proc) (op : Op), run ops p0 = .ok p → run (ops ++ [op]) p0 = (step p op >>= fun p' => .ok p') := by
    intro ops
    induction ops with
    | nil => intro p0 op h; cases h; rfl
    | cons x ops ih =>
      intro p0 op h
      rw [run] at h
      rw [List.cons_append, run]
      rcases hx : step p0 x with e | p1
      · rw [hx] at h; cases h
      · rw [hx] at h
        exact ih p1 op h
  have hlen : (o.view fun _ => false).mapped = 0 := by show o.map.len = 0; rw [hm]; rfl
  refine ⟨?_, ?_, ?_, ?_, ?_⟩
  · intro w hw
    rw [hrun _ _ _ h]
    simp only [step, hi, hasWord_gone hm hw]
    rfl
  · intro w id hw hl
    rw [hrun _ _ _ h]
    simp only [step, hi, insertWord_gone hm hw hl, caught]
    rfl
  · rw [Trie.numWords, Trie.rd32, if_neg (by omega)]
  · rw [Trie.numNodes, Trie.rd32, if_neg (by omega)]
  · exact ⟨_, by rw [hrun _ _ _ h]; simp only [step, hi]; rfl⟩

/-- A system that grants the first mapping and then refuses to make the file larger. -/
def fullDisk : System := ⟨true, fun k => ⟨true, k == 0, true⟩⟩

/-- A word of 40 letters: too long for 1024 bytes. -/
def wordOf40 : Word := List.replicate 40 0x61#16

theorem wordOf40_ok : IndexHistory.Ok [(wordOf40, 7)] :=
  ⟨by intro p hp l hl; simp only [List.mem_singleton] at hp; subst hp; rw [List.eq_of_mem_replicate hl]; decide,
   by intro p hp l hl; simp only [List.mem_singleton] at hp; subst hp
      rw [List.eq_of_mem_replicate (List.mem_of_mem_head? hl)]; decide,
   by intro p hp; simp only [List.mem_singleton] at hp; subst hp; show 7 < INVALID_WORDID; decide,
   by intro p hp r hr; simp only [List.mem_singleton] at hp hr; subst hp; subst hr; simp⟩

/-- A made trie has 1024 bytes doubled once for each later call that got all. -/
theorem made_mapping [Build] {sys : System} {o0 : Obj} (hc : construct (blank sys) = (o0, .ok ())) (w : Word) (id : WordID) {o : Obj} {r : M Nat}
    (hi : Res.insertWord w id o0 = (o, r)) (hr : ∀ e, r = .error e → caught e = true) :
    (∃ j, j ≤ 21 ∧ grants o.sys o.calls = j + 1 ∧ o.map = .live (1024 * 2^j)) ∨ (o.map = .gone ∧ Lost o) := by
  have hrun : run [.make sys, .insert 0 w id] [] = .ok [(.alive, o)] := by
    rw [run, step, hc]
    simp only [ok_bind, List.nil_append]
    rw [run, step]
    simp only [List.getElem?_cons_zero, hi]
    rcases r with e | a
    · simp only [hr e rfl, if_true, List.set_cons_zero]; rfl
    · simp only [List.set_cons_zero]; rfl
  exact C86_mapping _ _ hrun .alive o (by simp) (by simp)

theorem fullDisk_lost [Build] : ∃ o0 o, construct (blank fullDisk) = (o0, .ok ()) ∧
    Res.insertWord wordOf40 7 o0 = (o, .error .runtimeError) ∧ o.map = .gone := by
  obtain ⟨os, hl⟩ := like_exists fullDisk
  rcases sim_construct hl with ⟨h, _⟩ | ⟨_, h, _⟩ | ⟨_, _, o0, t, hc, _⟩
  · cases h
  · exact absurd h (by decide)
  obtain ⟨hg, hpos, hd, hsys⟩ := start_inv hc
  have hw : Storable wordOf40 := ⟨by decide, wordOf40_ok.noNul (wordOf40, 7) (by simp), wordOf40_ok.start (wordOf40, 7) (by simp)⟩
  have hden : ∀ o : Obj, o.sys = fullDisk → denied o = 0 := by
    intro o ho
    unfold denied
    rw [ho, List.countP_eq_zero]
    intro k _
    simp [fullDisk]
  refine ⟨o0, ?_⟩
  rcases insertWord_cases hg hpos hw (id := 7) (by decide) (fun i hi => absurd hi (init_has _ _)) with
    ⟨o, g', ad', free', a, e, h', hh, _, fate⟩ | ⟨o, g', ad', free', e, h', hh, _, fate⟩ | ⟨o, e, hgone, _⟩
  · exfalso
    have hroom := h'.room (w := wordOf40) (by decide) ((hh _ _).2 (Or.inl ⟨rfl, rfl⟩))
    have hlive := live_of_hdr h'.hdr
    rcases made_mapping hc wordOf40 7 e (by intro x hx; cases hx) with ⟨j, _, hj, hm⟩ | ⟨hm, _⟩
    · have hg1 : grants o.sys o.calls ≤ 1 := by
        rw [fate.sys, hsys]
        unfold grants
        have : (fun k => granted fullDisk k) = fun k => k == 0 := by
          funext k; unfold granted fullDisk; cases k <;> simp
        show (List.range o.calls).countP (fun k => granted fullDisk k) ≤ 1
        rw [this]
        exact List.nodup_iff_count_le_one.1 List.nodup_range 0
      obtain rfl : j = 0 := by omega
      rw [hm] at hlive
      have hmap : (1024 * 2^0 : Nat) = (vw o).mapped := by injection hlive
      rw [← hmap] at hroom
      exact absurd hroom (by decide)
    · rw [hm] at hlive; cases hlive
  · exfalso
    have := fate.denied
    rw [hden o (fate.sys.trans hsys), hden o0 hsys] at this
    omega
  · exact ⟨o, hc, e, hgone⟩

/-- C97 is false: the disk is full, inserting a word throws `runtime_error`, and after the program has caught it every
look-up is undefined behaviour. -/
theorem C97_false [Build] : ∃ p, run [.make fullDisk, .insert 0 wordOf40 7] [] = .ok p ∧
    ∀ w : Word, w ≠ [] → run [.make fullDisk, .insert 0 wordOf40 7, .find 0 w] [] = .error .ub := by
  obtain ⟨o0, o, hc, hi, hm⟩ := fullDisk_lost
  have hrun : run [.make fullDisk, .insert 0 wordOf40 7] [] = .ok [(.alive, o)] := by
    rw [run, step, hc]
    simp only [ok_bind, List.nil_append]
    rw [run, step]
    simp only [List.getElem?_cons_zero, hi, caught, if_true, List.set_cons_zero]
    rfl
  refine ⟨_, hrun, fun w hw => ?_⟩
  exact (C97_lost _ _ hrun 0 o rfl hm).1 w hw

/-- A system that refuses the first `munmap` only. -/
def stubborn : System := ⟨true, fun k => ⟨k != 1, true, true⟩⟩

/-- Its first insertion of the long word fails, the second comes back, and the word is found. -/
theorem C97_example [Build] : ∃ o0 o, construct (blank stubborn) = (o0, .ok ()) ∧
    tryAll [(wordOf40, 7), (wordOf40, 7)] o0 = (o, .ok [false, true]) ∧ (o.view fun _ => false).hasWord wordOf40 = .ok true ∧
    (o.view fun _ => false).numWords = .ok 1 := by
  obtain ⟨os, hl⟩ := like_exists stubborn
  rcases sim_construct hl with ⟨h, _⟩ | ⟨_, h, _⟩ | ⟨_, _, o0, t, hc, _⟩
  · cases h
  · exact absurd h (by decide)
  obtain ⟨hg, hpos, hd, hsys⟩ := start_inv hc
  have hw : Storable wordOf40 := ⟨by decide, wordOf40_ok.noNul (wordOf40, 7) (by simp), wordOf40_ok.start (wordOf40, 7) (by simp)⟩
  have hden : ∀ o : Obj, o.sys = stubborn → denied o = if 1 < o.calls then 1 else 0 := by
    intro o ho
    unfold denied
    rw [ho]
    have : (fun k => decide (0 < k) && !(stubborn.expand k).unmap) = fun k => k == 1 := by
      funext k
      match k with
      | 0 => rfl
      | 1 => rfl
      | k + 2 => simp [stubborn]
    rw [this]
    show (List.range o.calls).count 1 = _
    split
    · exact List.count_eq_one_of_mem List.nodup_range (List.mem_range.2 (by omega))
    · exact List.count_eq_zero.2 (by rw [List.mem_range]; omega)
  have hok2 : IndexHistory.Ok [(wordOf40, 7), (wordOf40, 7)] := by
    have hsub : ∀ p ∈ [(wordOf40, 7), (wordOf40, 7)], p ∈ [(wordOf40, 7)] := by intro p hp; simpa using hp
    exact ⟨fun p hp => wordOf40_ok.noNul p (hsub p hp), fun p hp => wordOf40_ok.start p (hsub p hp),
      fun p hp => wordOf40_ok.valid p (hsub p hp), fun p hp q hq => wordOf40_ok.consistent p (hsub p hp) q (hsub q hq)⟩
  have hne2 : ∀ p ∈ [(wordOf40, 7), (wordOf40, 7)], p.1 ≠ [] := by
    intro p hp
    obtain rfl : p = (wordOf40, 7) := by simpa using hp
    decide
  -- the first insertion fails
  have hfirst : ∃ o1, Res.insertWord wordOf40 7 o0 = (o1, .error .runtimeError) := by
    rcases insertWord_cases hg hpos hw (id := 7) (by decide) (fun i hi => absurd hi (init_has _ _)) with
      ⟨o, g', ad', free', a, e, h', hh, _, fate⟩ | ⟨o, g', ad', free', e, h', hh, _, fate⟩ | ⟨o, e, hgone, _⟩
    · exfalso
      have hroom := h'.room (w := wordOf40) (by decide) ((hh _ _).2 (Or.inl ⟨rfl, rfl⟩))
      have hlive := live_of_hdr h'.hdr
      have hcalls : ¬ 1 < o.calls := by
        have hx := fate.denied
        rw [hd, hden o (fate.sys.trans hsys)] at hx
        intro h1
        rw [if_pos h1] at hx
        omega
      rcases made_mapping hc wordOf40 7 e (by intro x hx; cases hx) with ⟨j, _, hj, hm⟩ | ⟨hm, _⟩
      · have hg1 : grants o.sys o.calls ≤ o.calls := by
          unfold grants
          have := List.countP_le_length (p := granted o.sys) (l := List.range o.calls)
          rwa [List.length_range] at this
        obtain rfl : j = 0 := by omega
        rw [hm] at hlive
        have hmap : (1024 * 2^0 : Nat) = (vw o).mapped := by injection hlive
        rw [← hmap] at hroom
        exact absurd hroom (by decide)
      · rw [hm] at hlive; cases hlive
    · exact ⟨o, e⟩
    · exact ⟨o, e⟩
  obtain ⟨o1, h1⟩ := hfirst
  obtain ⟨o, bs, hr, hm⟩ := C97_kept stubborn o0 hc _ hok2 hne2 (fun k => ⟨rfl, rfl⟩) (by decide)
  obtain ⟨hlen, hcount, hhas, ws, hnd, hws, hnum⟩ := C97_partial stubborn o0 hc _ hok2 hne2 o bs hr hm
  have hbs : bs = [false, true] := by
    have hhead : ∃ bs', bs = false :: bs' := by
      rw [tryAll, h1] at hr
      dsimp only at hr
      rcases hx : tryAll [(wordOf40, 7)] o1 with ⟨o2, er | bs'⟩
      · rw [hx] at hr; cases hr
      · rw [hx] at hr; cases hr; exact ⟨_, rfl⟩
    obtain ⟨bs', rfl⟩ := hhead
    have hle : denied o ≤ 1 := by
      have hs : o.sys = stubborn := by
        rcases tryAll_cases _ o0 _ _ _ [] hg hpos (fun v i => by simp [init_has]) hok2 hne2 with
          ⟨o', bs', g', ad', free', e, _, _, _, _, hs'⟩ | ⟨o', e, hgone, _⟩
        · rw [hr] at e
          cases e
          exact hs'.trans hsys
        · rw [hr] at e
          have : o = o' := e
          exact absurd (by rw [this]; exact hgone) hm
      rw [hden o hs]; split <;> omega
    simp only [List.length_cons, List.length_nil] at hlen
    rw [List.count_cons_self] at hcount
    match bs', hlen with
    | [b], _ =>
      cases b with
      | true => rfl
      | false => simp at hcount; omega
  subst hbs
  have hmem : ∀ w : Word, (∃ id, ((w, id), true) ∈ [(wordOf40, 7), (wordOf40, 7)].zip [false, true]) ↔ w = wordOf40 := by
    intro w
    constructor
    · rintro ⟨id, hx⟩
      simp at hx
      exact hx.1
    · rintro rfl
      exact ⟨7, by simp⟩
  refine ⟨o0, o, hc, hr, ?_, ?_⟩
  · obtain ⟨b, e, hb⟩ := hhas wordOf40 hw.2.1
    rw [e, hb.2 ((hmem _).2 rfl)]
  · rw [hnum]
    have hperm : ws.Perm [wordOf40] := (List.perm_ext_iff_of_nodup hnd (by simp)).2 (by
      intro w; rw [hws, hmem]; simp)
    rw [hperm.length_eq]
    rfl

end Columbus.Props
