import Verif.Props.Typos
/-
C111: a mistake costs the same wherever it is in the word.
-/

namespace Columbus.Props
open Columbus Spec ErrorValues

/-! ### C111 -/

theorem edits_reverse {q w : Word} {n : Nat} (h : Edits q w n) : Edits q.reverse w.reverse n := by
  induction h with
  | nil => exact .nil
  | @delete q w n a _ ih =>
    have := edits_append (Edits.delete a .nil) ih
    rw [Nat.add_comm] at this
    simpa using this
  | @insert q w n b _ ih =>
    have := edits_append (Edits.insert b .nil) ih
    rw [Nat.add_comm] at this
    simpa using this
  | @keep q w n a _ ih =>
    have := edits_append (Edits.keep a .nil) ih
    simpa using this
  | @replace q w n a b _ ih =>
    have := edits_append (Edits.replace a b .nil) ih
    rw [Nat.add_comm] at this
    simpa using this
  | @swap q w n a b _ ih =>
    have := edits_append (Edits.swap b a .nil) ih
    rw [Nat.add_comm] at this
    simpa using this

/-- A common last letter is not needed. -/
theorem edits_strip {q w : Word} {a : Letter} {n : Nat} (h : Edits (q ++ [a]) (w ++ [a]) n) : ∃ m ≤ n, Edits q w m := by
  have snoc : ∀ {x y : Word} {c d : Letter}, x ++ [c] = y ++ [d] → x = y ∧ c = d := by
    intro x y c d h
    obtain ⟨h1, h2⟩ := List.append_inj' h rfl
    exact ⟨h1, List.head_eq_of_cons_eq h2⟩
  generalize hx : q ++ [a] = x at h
  generalize hy : w ++ [a] = y at h
  cases h with
  | nil => simp at hx
  | @delete q' w' n' c h =>
    obtain ⟨rfl, rfl⟩ := snoc hx
    rw [← hy] at h
    obtain ⟨m, hm, h⟩ := edits_without (v := []) (by simpa using h)
    exact ⟨m, hm, by simpa using h⟩
  | @insert q' w' n' c h =>
    obtain ⟨rfl, rfl⟩ := snoc hy
    rw [← hx] at h
    obtain ⟨m, hm, h⟩ := edits_without (v := []) (by simpa using edits_symm h)
    exact ⟨m, hm, edits_symm (by simpa using h)⟩
  | @keep q' w' n' c h =>
    obtain ⟨rfl, _⟩ := snoc hx
    obtain ⟨rfl, _⟩ := snoc hy
    exact ⟨n, Nat.le_refl _, h⟩
  | @replace q' w' n' c d h =>
    obtain ⟨rfl, _⟩ := snoc hx
    obtain ⟨rfl, _⟩ := snoc hy
    exact ⟨n', Nat.le_succ _, h⟩
  | @swap q' w' n' c d h =>
    obtain ⟨rfl, rfl⟩ := snoc (show q ++ [a] = (q' ++ [c]) ++ [d] by simpa using hx)
    obtain ⟨rfl, rfl⟩ := snoc (show w ++ [a] = (w' ++ [a]) ++ [c] by simpa using hy)
    exact ⟨n', Nat.le_succ _, h.keep a⟩

/-- C111, distances: what two words have in common at the beginning and at the end does not change the number of edits. -/
theorem C111_distance (u v q w : Word) (n : Nat) : IsEditDistance (u ++ q ++ v) (u ++ w ++ v) n ↔ IsEditDistance q w n := by
  have right : ∀ (v : Word) {q w : Word} {n : Nat}, Edits (q ++ v) (w ++ v) n → ∃ m ≤ n, Edits q w m := by
    intro v
    induction v using List.reverseRecOn with
    | nil => intro q w n h; exact ⟨n, Nat.le_refl _, by simpa using h⟩
    | append_singleton v a ih =>
      intro q w n h
      rw [← List.append_assoc, ← List.append_assoc] at h
      obtain ⟨m, hm, h⟩ := edits_strip h
      obtain ⟨m', hm', h⟩ := ih h
      exact ⟨m', by omega, h⟩
  have both : ∀ {n : Nat}, Edits (u ++ q ++ v) (u ++ w ++ v) n → ∃ m ≤ n, Edits q w m := by
    intro n h
    obtain ⟨m, hm, h⟩ := right v h
    have h := edits_reverse h
    rw [List.reverse_append, List.reverse_append] at h
    obtain ⟨m', hm', h⟩ := right _ h
    exact ⟨m', by omega, by simpa using edits_reverse h⟩
  constructor
  · intro h
    obtain ⟨m, hm, h1⟩ := both h.1
    have := h.2 m (edits_between u v h1)
    obtain rfl : m = n := by omega
    exact ⟨h1, fun k hk => h.2 k (edits_between u v hk)⟩
  · intro h
    refine ⟨edits_between u v h.1, fun k hk => ?_⟩
    obtain ⟨m, hm, h1⟩ := both hk
    exact (h.2 m h1).trans hm

/-- C111, distances: words read backwards are as many edits apart. -/
theorem C111_backwards (q w : Word) (n : Nat) : IsEditDistance q.reverse w.reverse n ↔ IsEditDistance q w n := by
  have back : ∀ {n : Nat}, Edits q.reverse w.reverse n → Edits q w n := fun h => by simpa using edits_reverse h
  exact ⟨fun h => ⟨back h.1, fun m hm => h.2 m (edits_reverse hm)⟩, fun h => ⟨edits_reverse h.1, fun m hm => h.2 m (back hm)⟩⟩

/-- Searches in two indexes of which the words of one are made from those of the other without changing distances. -/
theorem search_alike [Build] [Icu] [Runtime] (os os' : Nat → Bool) (t : Word → Word) (h : IndexHistory) (ix ix' : LevIndex)
    (ho : IndexHistory.Ok h) (ho' : IndexHistory.Ok (h.map fun p => (t p.1, p.2))) (hb : built os h = .ok ix)
    (hb' : built os' (h.map fun p => (t p.1, p.2)) = .ok ix') (hl : ∀ p ∈ h, p.1.length ≤ 10000000 ∧ (t p.1).length ≤ 10000000)
    (hne : ∀ p ∈ h, p.1 ≠ [] ∧ t p.1 ≠ []) (q : Word) (hq : (∀ l ∈ q, l ≠ 0#16) ∧ ∀ l ∈ t q, l ≠ 0#16)
    (hql : q.length ≤ 10000000 ∧ (t q).length ≤ 10000000) (ht : ∀ w n, IsEditDistance (t q) (t w) n ↔ IsEditDistance q w n) (T : Int) :
    ∃ r r', ix.findWords q (afterOps []) T [] = .ok r ∧ ix'.findWords (t q) (afterOps []) T [] = .ok r' ∧ ∀ x, x ∈ r' ↔ x ∈ r := by
  obtain ⟨r, e, hm⟩ := found_within os h ix ho hb (fun p hp => (hl p hp).1) q hq.1 hql.1 T
  obtain ⟨r', e', hm'⟩ := found_within os' _ ix' ho' hb' (by
    intro p hp
    obtain ⟨x, hx, rfl⟩ := List.mem_map.1 hp
    exact (hl x hx).2) (t q) hq.2 hql.2 T
  refine ⟨r, r', e, e', fun x => ?_⟩
  rw [hm, hm']
  constructor
  · rintro ⟨w', n, ⟨hw1, hw2⟩, hd, h1, h2⟩
    obtain ⟨p, hp, hpw⟩ := List.mem_map.1 hw2
    injection hpw with p1 p2
    refine ⟨p.1, n, ⟨(hne p hp).1, ?_⟩, ?_, h1, h2⟩
    · rw [← p2]; exact hp
    · rw [← p1] at hd; exact (ht _ _).1 hd
  · rintro ⟨w, n, ⟨hw1, hw2⟩, hd, h1, h2⟩
    exact ⟨t w, n, ⟨(hne _ hw2).2, List.mem_map.2 ⟨_, hw2, rfl⟩⟩, (ht _ _).2 hd, h1, h2⟩

/-- C111, indexes: with the default errors, a search finds the same words with the same errors if all words and the query get
the same letters in front and at the end. -/
theorem C111_search [Build] [Icu] [Runtime] (os os' : Nat → Bool) (u v : Word) (h : IndexHistory) (ix ix' : LevIndex)
    (ho : IndexHistory.Ok h) (ho' : IndexHistory.Ok (h.map fun p => (u ++ p.1 ++ v, p.2))) (hb : built os h = .ok ix)
    (hb' : built os' (h.map fun p => (u ++ p.1 ++ v, p.2)) = .ok ix') (hne : ∀ p ∈ h, p.1 ≠ [])
    (hl : ∀ p ∈ h, u.length + p.1.length + v.length ≤ 10000000) (q : Word) (hq : ∀ l ∈ u ++ q ++ v, l ≠ 0#16)
    (hql : u.length + q.length + v.length ≤ 10000000) (T : Int) :
    ∃ r r', ix.findWords q (afterOps []) T [] = .ok r ∧ ix'.findWords (u ++ q ++ v) (afterOps []) T [] = .ok r' ∧ ∀ x, x ∈ r' ↔ x ∈ r :=
  search_alike os os' (fun w => u ++ w ++ v) h ix ix' ho ho' hb hb'
    (fun p hp => by have := hl p hp; simp only [List.length_append]; omega)
    (fun p hp => ⟨hne p hp, by simp [hne p hp]⟩) q ⟨fun l hl => hq l (by simp [hl]), hq⟩
    (by simp only [List.length_append]; omega) (fun w n => C111_distance u v q w n) T

/-- C111, indexes: the same if all words and the query are read backwards. -/
theorem C111_search_backwards [Build] [Icu] [Runtime] (os os' : Nat → Bool) (h : IndexHistory) (ix ix' : LevIndex)
    (ho : IndexHistory.Ok h) (ho' : IndexHistory.Ok (h.map fun p => (p.1.reverse, p.2))) (hb : built os h = .ok ix)
    (hb' : built os' (h.map fun p => (p.1.reverse, p.2)) = .ok ix') (hne : ∀ p ∈ h, p.1 ≠ []) (hl : ∀ p ∈ h, p.1.length ≤ 10000000)
    (q : Word) (hq : ∀ l ∈ q, l ≠ 0#16) (hql : q.length ≤ 10000000) (T : Int) :
    ∃ r r', ix.findWords q (afterOps []) T [] = .ok r ∧ ix'.findWords q.reverse (afterOps []) T [] = .ok r' ∧ ∀ x, x ∈ r' ↔ x ∈ r :=
  search_alike os os' List.reverse h ix ix' ho ho' hb hb' (fun p hp => by simpa using hl p hp)
    (fun p hp => ⟨hne p hp, by simpa using hne p hp⟩) q ⟨hq, fun l hl => hq l (by simpa using hl)⟩
    (by simpa using hql) (fun w n => C111_backwards q w n) T

/-- A search for "ac" in an index of "abc" and one for "xacy" in an index of "xabcy". -/
example : (@built Example.debug (fun _ => true) [([0x61, 0x62, 0x63], 3)] >>= fun ix =>
      @LevIndex.findWords Example.debug Example.runtime ix [0x61, 0x63] (@afterOps Example.debug Example.icu []) 200 []) = .ok [⟨3, 100⟩] ∧
    (@built Example.debug (fun _ => true) [([0x78, 0x61, 0x62, 0x63, 0x79], 3)] >>= fun ix =>
      @LevIndex.findWords Example.debug Example.runtime ix [0x78, 0x61, 0x63, 0x79] (@afterOps Example.debug Example.icu []) 200 []) =
        .ok [⟨3, 100⟩] := ⟨by decide +kernel, by decide +kernel⟩

end Columbus.Props
