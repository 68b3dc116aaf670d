import Verif.Model.Python
import Verif.Proofs.Word
/-
C78: word lists in Python.
-/

namespace Columbus.Props
open Columbus Columbus.Python

/-- The additions of a program. -/
def additions : List Op → Nat
  | [] => 0
  | .add _ :: r => additions r + 1
  | .addItem _ :: r => additions r + 1
  | _ :: r => additions r

section
variable [Growth]

/-- A vector has room for its elements. -/
theorem addWord_room (l : PyWords) (w : Word) :
    (l.addWord w).words.length ≤ (l.addWord w).capacity := by
  unfold PyWords.addWord
  split
  · simp; omega
  · simp
    have := Growth.grow_lt l.words.length
    omega

/-- What one operation does to list, place and items. -/
theorem step_kinds {l l' : PyWords} {o : Op} {x : Ret} (e : l.step o = .ok (l', x)) :
    (∃ w, l' = l.addWord w ∧ additions [o] = 1) ∨
    (l'.words = l.words ∧ l'.capacity = l.capacity ∧ l'.place = l.place ∧ (∃ s, l'.items = l.items ++ s) ∧ additions [o] = 0) := by
  cases o with
  | add w =>
    simp only [PyWords.step] at e
    injection e with e
    injection e with e _
    exact Or.inl ⟨w, e.symm, rfl⟩
  | addItem r =>
    simp only [PyWords.step] at e
    cases h : l.item r with
    | error f => rw [h] at e; cases e
    | ok w =>
      rw [h] at e
      injection e with e
      injection e with e _
      exact Or.inl ⟨w, e.symm, rfl⟩
  | take i =>
    simp only [PyWords.step] at e
    injection e with e
    unfold PyWords.getItem at e
    right
    split at e
    · injection e with e _; subst e; exact ⟨rfl, rfl, rfl, ⟨_, rfl⟩, rfl⟩
    · injection e with e _; subst e; exact ⟨rfl, rfl, rfl, ⟨[], by simp⟩, rfl⟩
  | text r =>
    simp only [PyWords.step] at e
    right
    cases h : l.item r with
    | error f => rw [h] at e; cases e
    | ok w =>
      rw [h] at e
      simp only [ok_bind] at e
      cases ht : Word.asUtf8 w with
      | error f => rw [ht] at e; cases e
      | ok t =>
        rw [ht] at e
        injection e with e
        injection e with e _
        subst e
        exact ⟨rfl, rfl, rfl, ⟨[], by simp⟩, rfl⟩

theorem addWord_items (l : PyWords) (w : Word) : (l.addWord w).items = l.items := by unfold PyWords.addWord; split <;> rfl
theorem addWord_words (l : PyWords) (w : Word) : (l.addWord w).words = l.words ++ [w] := by unfold PyWords.addWord; split <;> rfl

omit [Growth] in
theorem additions_cons (o : Op) (r : List Op) : additions (o :: r) = additions [o] + additions r := by
  cases o <;> simp [additions, Nat.add_comm]

/-- Items, words and place after a program. -/
theorem run_facts (ops : List Op) : ∀ {l l' : PyWords} {xs : List Ret}, l.words.length ≤ l.capacity → l.run ops = .ok (l', xs) →
    (∃ s, l'.items = l.items ++ s) ∧ (∃ s, l'.words = l.words ++ s ∧ s.length = additions ops) ∧ l'.words.length ≤ l'.capacity ∧
    (additions ops ≤ l.capacity - l.words.length → l'.place = l.place) ∧
    (l.capacity - l.words.length < additions ops → l.place < l'.place) ∧ l.place ≤ l'.place := by
  induction ops with
  | nil =>
    intro l l' xs hc e
    injection e with e
    injection e with e _
    subst e
    refine ⟨⟨[], by simp⟩, ⟨[], by simp, rfl⟩, hc, fun _ => rfl, fun h => ?_, le_refl _⟩
    simp [additions] at h
  | cons o ops ih =>
    intro l l' xs hc e
    rw [PyWords.run] at e
    cases hs : l.step o with
    | error f => rw [hs] at e; cases e
    | ok p =>
      obtain ⟨l1, x⟩ := p
      rw [hs] at e
      simp only [ok_bind] at e
      cases hr : l1.run ops with
      | error f => rw [hr] at e; cases e
      | ok p =>
        obtain ⟨l2, ys⟩ := p
        rw [hr] at e
        injection e with e
        have el := (Prod.mk.inj e).1
        dsimp only at el
        subst el
        rw [additions_cons]
        rcases step_kinds hs with ⟨w, rfl, ha⟩ | ⟨hw, hcap, hp, ⟨s0, hi⟩, ha⟩
        · obtain ⟨⟨s, h1⟩, ⟨t, h2, h2'⟩, h3, h4, h5, h6⟩ := ih (addWord_room l w) hr
          rw [addWord_items] at h1
          rw [addWord_words] at h2
          refine ⟨⟨s, h1⟩, ⟨w :: t, by rw [h2]; simp, by simp [h2', ha]; omega⟩, h3, ?_, ?_, ?_⟩
          · intro hle
            rw [addWord_words] at h4
            have hlt : l.words.length < l.capacity := by omega
            have e1 : l.addWord w = { l with words := l.words ++ [w] } := by unfold PyWords.addWord; rw [if_pos hlt]
            rw [e1] at h4
            simp only [List.length_append, List.length_cons, List.length_nil] at h4
            exact h4 (by omega)
          · intro hgt
            rw [addWord_words] at h5
            by_cases hlt : l.words.length < l.capacity
            · have e1 : l.addWord w = { l with words := l.words ++ [w] } := by unfold PyWords.addWord; rw [if_pos hlt]
              rw [e1] at h5
              simp only [List.length_append, List.length_cons, List.length_nil] at h5
              exact h5 (by omega)
            · have e1 : (l.addWord w).place = l.place + 1 := by unfold PyWords.addWord; rw [if_neg hlt]
              omega
          · have : l.place ≤ (l.addWord w).place := by unfold PyWords.addWord; split <;> simp
            omega
        · obtain ⟨⟨s, h1⟩, ⟨t, h2, h2'⟩, h3, h4, h5, h6⟩ := ih (by rw [hw, hcap]; exact hc) hr
          rw [hw, hcap, hp] at h4 h5
          rw [hp] at h6
          rw [ha, Nat.zero_add]
          exact ⟨⟨s0 ++ s, by rw [h1, hi]; simp⟩, ⟨t, by rw [h2, hw], h2'⟩, h3, h4, h5, h6⟩

/-- C78, what holds: an item taken keeps its value as long as the additions fit the
room the vector has. After one more addition, using it is undefined. Missing from the full claim: that the item stays valid
then. -/
theorem C78_item_partial (before after : List Op) (l l' : PyWords) (xs ys : List Ret) (i : Nat) (w : Word)
    (e : PyWords.new.run before = .ok (l, xs)) (hw : l.words[i]? = some w) (e' : (l.getItem i).1.run after = .ok (l', ys)) :
    (additions after ≤ l.capacity - l.words.length → l'.item l.items.length = .ok w) ∧
    (l.capacity - l.words.length < additions after → l'.item l.items.length = .error .ub) := by
  obtain ⟨_, _, hc, _⟩ := run_facts before (by simp [PyWords.new]) e
  obtain ⟨hi, _⟩ := List.getElem?_eq_some_iff.1 hw
  have eg : (l.getItem i).1 = { l with items := l.items ++ [(i, l.place)] } := by unfold PyWords.getItem; rw [if_pos hi]
  rw [eg] at e'
  obtain ⟨⟨s, h1⟩, ⟨t, h2, _⟩, _, h4, h5, _⟩ :=
    run_facts (l := { l with items := l.items ++ [(i, l.place)] }) after hc e'
  have hit : l'.items[l.items.length]? = some (i, l.place) := by rw [h1]; simp
  constructor
  · intro h
    have hp := h4 h
    unfold PyWords.item
    rw [hit]
    simp only [hp, if_true]
    have : l'.words[i]? = some w := by rw [h2, List.getElem?_append_left hi]; exact hw
    rw [this]
  · intro h
    have hp := h5 h
    unfold PyWords.item
    rw [hit]
    simp only
    rw [if_neg]
    exact Nat.ne_of_lt hp

theorem run_adds (ws : List Word) : ∀ l : PyWords, ∃ l' xs, l.run (ws.map .add) = .ok (l', xs) := by
  induction ws with
  | nil => intro l; exact ⟨l, [], rfl⟩
  | cons w ws ih =>
    intro l
    obtain ⟨l', xs, h⟩ := ih (l.addWord w)
    refine ⟨l', .none :: xs, ?_⟩
    simp only [List.map_cons, PyWords.run, PyWords.step, ok_bind, h]

omit [Growth] in
theorem additions_adds (ws : List Word) : additions (ws.map .add) = ws.length := by
  induction ws with
  | nil => rfl
  | cons w ws ih => simp [additions, ih]

theorem run_append (a b : List Op) : ∀ {l l1 l2 : PyWords} {xs : List Ret}, l.run a = .ok (l1, xs) →
    (∀ f, l1.run b = .error f → l.run (a ++ b) = .error f) ∧ (∀ ys, l1.run b = .ok (l2, ys) → l.run (a ++ b) = .ok (l2, xs ++ ys)) := by
  induction a with
  | nil =>
    intro l l1 l2 xs e
    injection e with e
    injection e with e e2
    subst e; subst e2
    exact ⟨fun f h => h, fun ys h => h⟩
  | cons o a ih =>
    intro l l1 l2 xs e
    rw [PyWords.run] at e
    cases hs : l.step o with
    | error f => rw [hs] at e; cases e
    | ok p =>
      obtain ⟨l0, x⟩ := p
      rw [hs] at e
      simp only [ok_bind] at e
      cases hr : l0.run a with
      | error f => rw [hr] at e; cases e
      | ok p =>
        obtain ⟨l3, ys⟩ := p
        rw [hr] at e
        injection e with e
        injection e with e e2
        subst e; subst e2
        obtain ⟨h1, h2⟩ := ih (l2 := l2) hr
        constructor
        · intro f hf; simp only [List.cons_append, PyWords.run, hs, ok_bind, h1 f hf]; rfl
        · intro zs hz; simp only [List.cons_append, PyWords.run, hs, ok_bind, h2 zs hz]

/-- C78. However vectors grow, some program that adds one word, takes it, adds words and asks for the text of the item uses
memory that was given back. -/
theorem C78_dangling (w : Word) : ∃ n, PyWords.new.run ([.add w, .take 0] ++ List.replicate n (.add w) ++ [.text 0]) = .error .ub := by
  set l : PyWords := PyWords.new.addWord w with hl
  have hlw : l.words = [w] := by rw [hl, addWord_words]; rfl
  have e : PyWords.new.run [.add w] = .ok (l, [.none]) := rfl
  have hit : l.items = [] := by rw [hl, addWord_items]; rfl
  refine ⟨l.capacity, ?_⟩
  obtain ⟨l', xs, h⟩ := run_adds (List.replicate l.capacity w) (l.getItem 0).1
  rw [List.map_replicate] at h
  have hub := (C78_item_partial [.add w] _ l l' _ xs 0 w e (by rw [hlw]; rfl) h).2 (by
    rw [← List.map_replicate, additions_adds, List.length_replicate, hlw]
    have hcap : 0 < l.capacity := by
      have h1 := addWord_room PyWords.new w
      rw [← hl, hlw] at h1
      simp at h1; omega
    simp; omega)
  rw [hit] at hub
  have e2 : PyWords.new.run [.add w, .take 0] = .ok ((l.getItem 0).1, [.none, .none]) := by
    have : l.getItem 0 = ((l.getItem 0).1, .none) := by unfold PyWords.getItem; rw [if_pos (by rw [hlw]; simp)]
    simp only [PyWords.run, PyWords.step, ok_bind]
    rw [← hl, this]
  have e3 := (run_append _ _ (l2 := l') e2).2 xs h
  refine (run_append _ [.text 0] (l2 := l') e3).1 .ub ?_
  simp only [PyWords.run, PyWords.step]
  simp only [List.length_nil] at hub
  rw [hub]; rfl

omit [Growth] in
/-- C78. `for w in list` visits the words of the list in order. -/
theorem C78_iterate (l : PyWords) : ∃ n, l.iterate n 0 = .ok l.words := by
  have key : ∀ (k : Nat) (l : PyWords) (i : Nat), l.words.length - i = k → i ≤ l.words.length →
      l.iterate (k + 1) i = .ok (l.words.drop i) := by
    intro k
    induction k with
    | zero =>
      intro l i h1 h2
      have hi : i = l.words.length := by omega
      simp only [PyWords.iterate, PyWords.getItem]
      rw [if_neg (by omega), hi]
      simp
    | succ k ih =>
      intro l i h1 h2
      have hi : i < l.words.length := by omega
      have eg : l.getItem i = ({ l with items := l.items ++ [(i, l.place)] }, .none) := by unfold PyWords.getItem; rw [if_pos hi]
      rw [PyWords.iterate, eg]
      have hit : PyWords.item { l with items := l.items ++ [(i, l.place)] } l.items.length = .ok l.words[i] := by
        unfold PyWords.item
        simp [hi]
      simp only [hit, ok_bind]
      rw [ih { l with items := l.items ++ [(i, l.place)] } (i + 1) (by simp; omega) (by simp; omega)]
      simp only [ok_bind]
      rw [List.drop_eq_getElem_cons hi]
  exact ⟨_, by simpa using key l.words.length l 0 (by omega) (by omega)⟩

/-- C78. Words are added at the end, in order. -/
theorem C78_words (ws : List Word) (l l' : PyWords) (ys : List Ret) (e' : l.run (ws.map .add) = .ok (l', ys)) : l'.words = l.words ++ ws := by
  induction ws generalizing l l' ys with
  | nil => injection e' with e'; injection e' with e' _; subst e'; simp
  | cons w ws ih =>
    simp only [List.map_cons, PyWords.run, PyWords.step, ok_bind] at e'
    cases hr : (l.addWord w).run (ws.map .add) with
    | error f => rw [hr] at e'; cases e'
    | ok p =>
      obtain ⟨l2, zs⟩ := p
      rw [hr] at e'
      injection e' with e'
      injection e' with e' _
      subst e'
      rw [ih _ _ _ hr, addWord_words]; simp

/-- C78, what holds: the text of an item is that of the word that was taken, and adding the item adds that word, as long as
the additions fit the room the vector has. Missing from the full claim: the same after more additions. -/
theorem C78_text_partial (before after : List Op) (l l' : PyWords) (xs ys : List Ret) (i : Nat) (w : Word)
    (e : PyWords.new.run before = .ok (l, xs)) (hw : l.words[i]? = some w) (e' : (l.getItem i).1.run after = .ok (l', ys))
    (hroom : additions after ≤ l.capacity - l.words.length) :
    (∀ cps, Spec.Utf16 w cps → (∀ x ∈ w, x ≠ 0#16) →
      ∃ t, l'.step (.text l.items.length) = .ok (l', .text t) ∧ Spec.Utf8 t cps) ∧
    ∃ l'', l'.step (.addItem l.items.length) = .ok (l'', .none) ∧ l''.words = l'.words ++ [w] ∧ l''.items = l'.items := by
  have hit := (C78_item_partial before after l l' xs ys i w e hw e').1 hroom
  refine ⟨fun cps hc h0 => ?_, l'.addWord w, ?_, addWord_words l' w, addWord_items l' w⟩
  · refine ⟨_, ?_, utf8_encodes (Utf16.scalar hc)⟩
    simp only [PyWords.step, hit, ok_bind, asUtf8_ok' hc h0]
  · simp only [PyWords.step, hit, ok_bind]

end

/-- Doubling. -/
@[reducible] def doubling : Growth := ⟨fun n => 2 * n + 1, fun n => by omega⟩

/-- C78 is false. -/
theorem C78_false : ¬ ∀ ops : List Op, @PyWords.run doubling PyWords.new ops ≠ .error .ub := by
  intro h
  obtain ⟨n, hn⟩ := @C78_dangling doubling [0x61#16]
  exact h _ hn

/-- Two words fit after the third was added, then the elements move. -/
example : (@PyWords.run doubling PyWords.new [.add [0x61#16], .add [0x62#16], .take 0, .add [0x63#16], .text 0]).map (·.2) =
      .ok [.none, .none, .none, .none, .text [0x61]] ∧
    (@PyWords.run doubling PyWords.new [.add [0x61#16], .take 0, .add [0x62#16], .text 0]).map (·.2) = .error .ub := by
  decide

end Columbus.Props
