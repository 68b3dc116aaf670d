import Verif.Proofs.Edit
import Verif.Proofs.LevIndex
/-
The search through the trie fills the rows of the table and reports the words below the limit.
-/

namespace Columbus
open Spec

theorem chk_ok {v : Int} (h1 : -2147483648 ≤ v) (h2 : v < 2147483648) : chk v = .ok v := by
  unfold chk; rw [if_pos ⟨by omega, by omega⟩]

theorem idxSub_ok {a b : Nat} (h : b ≤ a) : idxSub a b = .ok (a - b) := by
  unfold idxSub; rw [if_pos h]

theorem wrap32_eq {v : Int} (h1 : -2147483648 ≤ v) (h2 : v < 2147483648) : wrap32 v = v := by
  unfold wrap32; omega

/-- The settings `e` price a query of the right length by `c`. -/
structure Priced (e : ErrorValues) (c : EditCosts) (n : Nat) : Prop where
  lead : c.lead = e.getDeletionError
  ins : c.ins = e.getInsertionError
  startIns : c.startIns = e.getStartInsertionError n
  endDel : c.endDel = e.getEndDeletionError
  del : c.del = e.getDeletionError
  trans : c.trans = e.getTransposeError
  sub : ∀ a b, e.getSubstituteError a b = .ok (c.sub a b)

/-- Sums along words of up to `L` letters fit an `int`. -/
structure Fits (c : EditCosts) (q : Word) (L : Nat) (B : Int) : Prop where
  within : c.Within B
  sum : ((L + q.length + 4 : Nat) : Int) * B + 10000 < 2147483648

/-- Rows up to `d` and the left column are those of the word `w`. -/
structure EmOk (em : ErrorMatrix) (c : EditCosts) (q w : Word) (L d : Nat) : Prop where
  rows : em.rows = L + 1
  columns : em.columns = q.length + 1
  row : ∀ r i, r ≤ d → i ≤ q.length → em.m r i = some (D c q w r i)
  col : ∀ r : Nat, em.m r 0 = some (r * c.startIns)

variable {e : ErrorValues} {c : EditCosts} {q : Word} {L : Nat} {B : Int}

theorem Fits.D_bound (hf : Fits c q L B) {w : Word} {d i : Nat} (hd : d ≤ w.length) (hw : w.length ≤ L) (hi : i ≤ q.length) :
    -2147473648 + B ≤ D c q w d i ∧ D c q w d i + B < 2147473648 ∧ 0 ≤ B := by
  have h0 : 0 ≤ B := by have := hf.within.1; omega
  have h1 := D_within (w := w) (q := q) hf.within hd hi
  have h2 := hf.sum
  have h3 : ((d + i : Nat) : Int) * B ≤ ((L + q.length : Nat) : Int) * B :=
    Int.mul_le_mul_of_nonneg_right (by omega) h0
  have h4 : ((L + q.length + 4 : Nat) : Int) * B = ((L + q.length : Nat) : Int) * B + 4 * B := by
    rw [Int.natCast_add, Int.add_mul]; rfl
  omega

theorem get_ok {em : ErrorMatrix} {r i : Nat} {v : Int} (h1 : r ≤ em.rows) (h2 : i ≤ em.columns) (h3 : em.m r i = some v) :
    em.get r i = .ok v := by
  unfold ErrorMatrix.get; rw [if_pos ⟨h1, h2⟩, h3]

/-- The letter before position `d`. -/
def prevLetter (w : Word) (d : Nat) : Letter := if d = 0 then 0#16 else w.getD (d - 1) 0

theorem transposable_eq (hq : ∀ l ∈ q, l ≠ 0#16) {w : Word} {i d : Nat} (hi : i < q.length) :
    LevIndex.transposable q (i + 1) (w.getD d 0) (prevLetter w d) =
      .ok (decide (0 < i ∧ 0 < d ∧ q.getD i 0 = w.getD (d - 1) 0 ∧ q.getD (i - 1) 0 = w.getD d 0)) := by
  unfold LevIndex.transposable
  by_cases h0 : 0 < i
  · rw [if_pos (by omega)]
    have e1 : LevIndex.queryText q (i + 1 - 1) = .ok (q.getD i 0) := by
      unfold LevIndex.queryText
      rw [Nat.add_sub_cancel, getD_of_lt hi]
    have e2 : LevIndex.queryText q (i + 1 - 2) = .ok (q.getD (i - 1) 0) := by
      unfold LevIndex.queryText
      rw [show i + 1 - 2 = i - 1 by omega, getD_of_lt (show i - 1 < q.length by omega)]
    rw [e1, e2]
    simp only [ok_bind]
    have hne : q.getD i 0 ≠ 0#16 := by
      apply hq
      rw [← getElem?_getD_mem hi]
      exact List.getElem_mem hi
    unfold prevLetter
    by_cases hd : d = 0
    · subst hd
      rw [if_pos rfl, if_neg hne]
      congr 1; symm; rw [decide_eq_false_iff_not]; omega
    · rw [if_neg hd]
      by_cases h1 : q.getD i 0 = w.getD (d - 1) 0
      · rw [if_pos h1]
        congr 1
        by_cases h2 : q.getD (i - 1) 0 = w.getD d 0
        · rw [decide_eq_true h2, decide_eq_true ⟨h0, by omega, h1, h2⟩]
        · rw [decide_eq_false h2, decide_eq_false]; exact fun hx => h2 hx.2.2.2
      · rw [if_neg h1]; congr 1; symm; rw [decide_eq_false_iff_not]; exact fun hx => h1 hx.2.2.1
  · rw [if_neg (by omega)]
    congr 1; symm; rw [decide_eq_false_iff_not]; omega
where
  getElem?_getD_mem {l : List Letter} {i : Nat} (h : i < l.length) : l[i] = l.getD i 0 := by
    rw [List.getD_eq_getElem?_getD, List.getElem?_eq_getElem h]; rfl

theorem findOptimalError_eq (hp : Priced e c q.length) (hf : Fits c q L B) (hq : ∀ l ∈ q, l ≠ 0#16) {em : ErrorMatrix} {w : Word}
    {d i : Nat} (hw : w.length = d + 1) (hL : d + 1 ≤ L) (hi : i < q.length) (hem : EmOk em c q w L d)
    (hrow : em.m (d + 1) i = some (D c q w (d + 1) i)) :
    LevIndex.findOptimalError (w.getD d 0) (prevLetter w d) q (i + 1) (d + 1) em e = .ok (D c q w (d + 1) (i + 1)) := by
  have hr := hem.rows
  have hc := hem.columns
  obtain ⟨w1, w2, w3, w4, w5, w6, w7⟩ := hf.within
  have b1 := hf.D_bound (w := w) (d := d + 1) (i := i) (by omega) (by omega) (by omega)
  have b2 := hf.D_bound (w := w) (d := d) (i := i + 1) (by omega) (by omega) (by omega)
  have b3 := hf.D_bound (w := w) (d := d) (i := i) (by omega) (by omega) (by omega)
  have b4 := hf.D_bound (w := w) (d := d - 1) (i := i - 1) (by omega) (by omega) (by omega)
  have b5 := w7 (q.getD i 0) (w.getD d 0)
  have g1 : em.get (d + 1) i = .ok (D c q w (d + 1) i) := get_ok (by omega) (by omega) hrow
  have g2 : em.get d (i + 1) = .ok (D c q w d (i + 1)) := get_ok (by omega) (by omega) (hem.row _ _ (by omega) (by omega))
  have g3 : em.get d i = .ok (D c q w d i) := get_ok (by omega) (by omega) (hem.row _ _ (by omega) (by omega))
  have g4 : em.get (d - 1) (i - 1) = .ok (D c q w (d - 1) (i - 1)) :=
    get_ok (by omega) (by omega) (hem.row _ _ (by omega) (by omega))
  have g5 : LevIndex.queryText q i = .ok (q.getD i 0) := by
    unfold LevIndex.queryText; rw [getD_of_lt hi]
  have htr := transposable_eq hq (w := w) (i := i) (d := d) hi
  have c1 := chk_ok (v := D c q w (d + 1) i + c.ins) (by omega) (by omega)
  have c2 := chk_ok (v := D c q w d (i + 1) + c.endDel) (by omega) (by omega)
  have c3 := chk_ok (v := D c q w d (i + 1) + c.del) (by omega) (by omega)
  have c4 := chk_ok (v := D c q w d i + c.sub (q.getD i 0) (w.getD d 0)) (by omega) (by omega)
  have c5 := chk_ok (v := D c q w (d + 1) i + c.ins + 10000) (by omega) (by omega)
  have c6 := chk_ok (v := D c q w (d - 1) (i - 1) + c.trans) (by omega) (by omega)
  have i1 := idxSub_ok (a := i + 1) (b := 1) (by omega)
  have i2 := idxSub_ok (a := d + 1) (b := 1) (by omega)
  rw [Nat.add_sub_cancel] at i1 i2
  have s1 := hp.sub (q.getD i 0) (w.getD d 0)
  rw [D_succ]
  unfold LevIndex.findOptimalError
  rw [← hp.ins, ← hp.endDel, ← hp.del, ← hp.trans]
  by_cases ht : 0 < i ∧ 0 < d ∧ q.getD i 0 = w.getD (d - 1) 0 ∧ q.getD (i - 1) 0 = w.getD d 0
  · rw [decide_eq_true ht] at htr
    have i3 := idxSub_ok (show 2 ≤ d + 1 by omega)
    rw [show d + 1 - 2 = d - 1 by omega] at i3
    rw [if_pos ht, show i + 1 - 2 = i - 1 by omega]
    by_cases hl : q.length ≤ i + 1
    · simp only [if_pos hl, i1, i2, i3, g1, g2, g3, g4, g5, s1, htr, c1, c2, c4, c6, ok_bind, if_true]
    · simp only [if_neg hl, i1, i2, i3, g1, g2, g3, g4, g5, s1, htr, c1, c3, c4, c6, ok_bind, if_true]
  · rw [decide_eq_false ht] at htr
    rw [if_neg ht]
    by_cases hl : q.length ≤ i + 1
    · simp only [if_pos hl, i1, i2, g1, g2, g3, g5, s1, htr, c1, c2, c4, c5, ok_bind, Bool.false_eq_true, if_false]
    · simp only [if_neg hl, i1, i2, g1, g2, g3, g5, s1, htr, c1, c3, c4, c5, ok_bind, Bool.false_eq_true, if_false]

theorem fillRow_eq (hp : Priced e c q.length) (hf : Fits c q L B) (hq : ∀ l ∈ q, l ≠ 0#16) {w : Word} {d : Nat}
    (hw : w.length = d + 1) (hL : d + 1 ≤ L) : ∀ (n i : Nat) (em : ErrorMatrix), i + n = q.length → EmOk em c q w L d →
    (∀ j, j ≤ i → em.m (d + 1) j = some (D c q w (d + 1) j)) →
    ∃ em', LevIndex.fillRow q e (w.getD d 0) (prevLetter w d) (d + 1) em (List.range' (i + 1) n) = .ok em' ∧
      EmOk em' c q w L (d + 1) := by
  intro n
  induction n with
  | zero =>
    intro i em hn hem hrow
    refine ⟨em, rfl, hem.rows, hem.columns, ?_, hem.col⟩
    intro r j hr hj
    by_cases hrd : r = d + 1
    · subst hrd; exact hrow j (by omega)
    · exact hem.row r j (by omega) hj
  | succ n ih =>
    intro i em hn hem hrow
    rw [List.range'_succ, LevIndex.fillRow, findOptimalError_eq hp hf hq hw hL (by omega) hem (hrow i (Nat.le_refl _))]
    simp only [ok_bind]
    rw [ErrorMatrix.set, if_neg (by rw [hem.rows]; omega), if_neg (by rw [hem.columns]; omega)]
    simp only [ok_bind]
    apply ih (i + 1) _ (by omega)
    · refine ⟨hem.rows, hem.columns, ?_, ?_⟩
      · intro r j hr hj
        show (if r = d + 1 ∧ j = i + 1 then _ else _) = _
        rw [if_neg (by omega)]; exact hem.row r j hr hj
      · intro r
        show (if r = d + 1 ∧ 0 = i + 1 then _ else _) = _
        rw [if_neg (by omega)]; exact hem.col r
    · intro j hj
      show (if d + 1 = d + 1 ∧ j = i + 1 then _ else _) = _
      by_cases hji : j = i + 1
      · rw [if_pos ⟨rfl, hji⟩, hji]
      · rw [if_neg (fun hx => hji hx.2)]; exact hrow j (by omega)

theorem fillRow_spec (hp : Priced e c q.length) (hf : Fits c q L B) (hq : ∀ l ∈ q, l ≠ 0#16) {w : Word} {d : Nat}
    (hw : w.length = d + 1) (hL : d + 1 ≤ L) {em : ErrorMatrix} (hem : EmOk em c q w L d) :
    ∃ em', LevIndex.fillRow q e (w.getD d 0) (prevLetter w d) (d + 1) em (List.range' 1 q.length) = .ok em' ∧
      EmOk em' c q w L (d + 1) := by
  apply fillRow_eq hp hf hq hw hL q.length 0 em (by omega) hem
  intro j hj
  have : j = 0 := by omega
  subst this
  rw [hem.col, D_col]

/-- Some cell of the row of `r` is within the limit. -/
def RowOk (c : EditCosts) (q : Word) (T : Int) (r : Word) : Prop := ∃ i, i ≤ q.length ∧ D c q r r.length i ≤ T

theorem minLoop_eq {em : ErrorMatrix} {w : Word} {d : Nat} (hem : EmOk em c q w L d) (hd : d ≤ L) (T : Int) :
    ∀ (n i : Nat) (v : Int), i + n = q.length → ((∃ j, j ≤ i ∧ D c q w d j ≤ T) ↔ v ≤ T) →
    ∃ r, em.minLoop d v (List.range' (i + 1) n) = .ok r ∧ ((∃ j, j ≤ q.length ∧ D c q w d j ≤ T) ↔ r ≤ T) := by
  intro n
  induction n with
  | zero =>
    intro i v hn hv
    rw [show i = q.length by omega] at hv
    exact ⟨v, rfl, hv⟩
  | succ n ih =>
    intro i v hn hv
    rw [List.range'_succ, ErrorMatrix.minLoop,
      get_ok (by rw [hem.rows]; omega) (by rw [hem.columns]; omega) (hem.row d (i + 1) (Nat.le_refl _) (by omega))]
    simp only [ok_bind]
    apply ih (i + 1) _ (by omega)
    constructor
    · rintro ⟨j, hj, h⟩
      by_cases hji : j = i + 1
      · subst hji; split <;> omega
      · have := hv.1 ⟨j, by omega, h⟩
        split <;> omega
    · intro h
      by_cases hx : D c q w d (i + 1) ≤ T
      · exact ⟨i + 1, Nat.le_refl _, hx⟩
      · have : v ≤ T := by split at h <;> omega
        obtain ⟨j, hj, h'⟩ := hv.2 this
        exact ⟨j, by omega, h'⟩

theorem minError_eq {em : ErrorMatrix} {w : Word} (hem : EmOk em c q w L w.length) (hd : w.length ≤ L) (T : Int) :
    ∃ r, em.minError w.length = .ok r ∧ (RowOk c q T w ↔ r ≤ T) := by
  unfold ErrorMatrix.minError
  rw [get_ok (by rw [hem.rows]; omega) (by omega) (hem.row w.length 0 (Nat.le_refl _) (by omega)), hem.columns,
    Nat.add_sub_cancel]
  simp only [ok_bind]
  apply minLoop_eq hem hd T q.length 0 _ (by omega)
  constructor
  · rintro ⟨j, hj, h⟩
    have : j = 0 := by omega
    subst this; exact h
  · intro h; exact ⟨0, Nat.le_refl _, h⟩

/-! ### Nodes below a node -/

/-- The search that enters node `k` gets to node `j`: no row in between is above the limit. -/
def Reach (g : Ghost) (c : EditCosts) (q : Word) (T : Int) (k j : Nat) : Prop :=
  j < g.n ∧ g.path k <+: g.path j ∧ ∀ r, g.path k <+: r → r <+: g.path j → r ≠ g.path j → RowOk c q T r

/-- `i` is a child of `p`. -/
def Ghost.Child (g : Ghost) (p i : Nat) : Prop := p < i ∧ i < g.n ∧ g.par i = p

theorem Ghost.Child.path {t : Trie} {g : Ghost} (h : TInv t g) {p i : Nat} (hc : g.Child p i) :
    g.path i = g.path p ++ [g.letter i] := by
  obtain ⟨h1, h2, h3⟩ := hc
  rw [h.path_eq i (by omega) h2, h3]

theorem child_unique {t : Trie} {g : Ghost} (h : TInv t g) {p i i' : Nat} {w : Word} (hi : g.Child p i) (hi' : g.Child p i')
    (h1 : g.path i <+: w) (h2 : g.path i' <+: w) : i = i' := by
  apply h.path_inj i i' hi.2.1 hi'.2.1
  have hl : (g.path i).length = (g.path i').length := by rw [hi.path h, hi'.path h]; simp
  exact (List.prefix_of_prefix_length_le h1 h2 (by omega)).eq_of_length hl

theorem reach_iff {t : Trie} {g : Ghost} (h : TInv t g) {T : Int} {k j : Nat} (hk : k < g.n) :
    Reach g c q T k j ↔ j = k ∨ (RowOk c q T (g.path k) ∧ ∃ i, g.Child k i ∧ Reach g c q T i j) := by
  constructor
  · rintro ⟨hj, hp, hr⟩
    by_cases hjk : j = k
    · exact Or.inl hjk
    · right
      have hne : g.path k ≠ g.path j := fun hx => hjk (h.path_inj j k hj hk hx.symm)
      refine ⟨hr _ (List.prefix_refl _) hp hne, ?_⟩
      have hlt : (g.path k).length < (g.path j).length := by
        rcases Nat.lt_or_ge (g.path k).length (g.path j).length with hx | hx
        · exact hx
        · exact absurd (hp.eq_of_length_le hx) hne
      obtain ⟨i, hi, e⟩ := h.prefix_path j hj _ (List.take_prefix ((g.path k).length + 1) (g.path j))
      have hin : i < g.n := by omega
      have hlen : (g.path i).length = (g.path k).length + 1 := by rw [e, List.length_take]; omega
      have hi0 : 1 ≤ i := by
        rcases Nat.eq_zero_or_pos i with hx | hx
        · subst hx; rw [h.path0] at hlen; simp at hlen
        · exact hx
      have hpi : g.path i <+: g.path j := by rw [e]; exact List.take_prefix _ _
      have hki : g.path k <+: g.path i := List.prefix_of_prefix_length_le hp hpi (by omega)
      have hpar : g.par i = k := by
        have hpl := h.par_lt i hi0 hin
        apply h.path_inj _ _ (by omega) hk
        have e2 := h.path_eq i hi0 hin
        have h3 : g.path (g.par i) <+: g.path i := by rw [e2]; exact List.prefix_append _ _
        have h4 : (g.path (g.par i)).length = (g.path k).length := by
          rw [e2] at hlen; simp at hlen; omega
        exact (List.prefix_of_prefix_length_le h3 hki (by omega)).eq_of_length h4
      refine ⟨i, ⟨?_, hin, hpar⟩, hj, hpi, ?_⟩
      · have := h.par_lt i hi0 hin; omega
      · intro r h1 h2 h3
        exact hr r (hki.trans h1) h2 h3
  · rintro (rfl | ⟨hro, i, hi, hj, hp, hr⟩)
    · refine ⟨hk, List.prefix_refl _, ?_⟩
      intro r h1 h2 h3
      exact absurd (h2.eq_of_length_le h1.length_le) h3
    · have hki : g.path k <+: g.path i := by rw [hi.path h]; exact List.prefix_append _ _
      refine ⟨hj, hki.trans hp, ?_⟩
      intro r h1 h2 h3
      rcases Nat.lt_or_ge (g.path k).length r.length with hx | hx
      · refine hr r ?_ h2 h3
        apply List.prefix_of_prefix_length_le hp h2
        rw [hi.path h]; simp; omega
      · rw [← h1.eq_of_length_le hx]; exact hro

/-- The node carries a word within the limit. -/
def Hit (g : Ghost) (c : EditCosts) (q : Word) (T : Int) (j : Nat) : Prop :=
  g.word j ≠ INVALID_WORDID ∧ best c q (g.path j) ≤ T

/-- The match reported for a node. -/
def md (g : Ghost) (c : EditCosts) (q : Word) (j : Nat) : MatchData := ⟨g.word j, best c q (g.path j)⟩

theorem EmOk.restrict {em : ErrorMatrix} {w v : Word} {d : Nat} (h : EmOk em c q (w ++ v) L d) {d' : Nat} (hd : d' ≤ d)
    (hw : d' ≤ w.length) : EmOk em c q w L d' := by
  refine ⟨h.rows, h.columns, ?_, h.col⟩
  intro r i hr hi
  rw [h.row r i (by omega) hi]
  congr 1
  apply D_congr
  intro j hj
  rw [List.getD_eq_getElem?_getD, List.getD_eq_getElem?_getD, List.getElem?_append_left (by omega)]

theorem EmOk.extend {em : ErrorMatrix} {w v : Word} {d : Nat} (h : EmOk em c q w L d) (hw : d ≤ w.length) :
    EmOk em c q (w ++ v) L d := by
  refine ⟨h.rows, h.columns, ?_, h.col⟩
  intro r i hr hi
  rw [h.row r i hr hi]
  congr 1
  apply D_congr
  intro j hj
  rw [List.getD_eq_getElem?_getD, List.getD_eq_getElem?_getD, List.getElem?_append_left (by omega)]

/-- What a search below nodes satisfying `S` produces. -/
def Found (g : Ghost) (c : EditCosts) (q : Word) (T : Int) (S : Nat → Prop) (js : List Nat) : Prop :=
  js.Nodup ∧ ∀ j, j ∈ js ↔ Hit g c q T j ∧ S j

theorem prevLetter_path {t : Trie} {g : Ghost} (h : TInv t g) {p : Nat} (hp : p < g.n) (l : Letter) :
    (if p = 0 then 0#16 else g.letter p) = prevLetter (g.path p ++ [l]) (g.path p).length := by
  unfold prevLetter
  by_cases h0 : p = 0
  · subst h0; rw [if_pos rfl, h.path0]; rfl
  · rw [if_neg h0, h.path_eq p (by omega) hp]
    rw [if_neg (by simp), List.getD_eq_getElem?_getD, List.getElem?_append_left (by simp)]
    simp

theorem search_spec {t : Trie} {g : Ghost} (h : TInv t g) (hp : Priced e c q.length) (hf : Fits c q L B)
    (hq : ∀ l ∈ q, l ≠ 0#16) (hL : ∀ k, k < g.n → (g.path k).length ≤ L) (T : Int) : ∀ fuel : Nat,
    (∀ (k : Nat) (em : ErrorMatrix) (ms : IndexMatches), 1 ≤ k → k < g.n → 2 * (g.n - k) + 1 ≤ fuel →
      EmOk em c q (g.path (g.par k)) L (g.path (g.par k)).length →
      ∃ em' js, LevIndex.searchRecursive t q e T fuel (addr k) (g.letter k)
          (if g.par k = 0 then 0#16 else g.letter (g.par k)) ((g.path (g.par k)).length + 1) em ms =
            .ok (em', ms ++ js.map (md g c q)) ∧
        EmOk em' c q (g.path (g.par k)) L (g.path (g.par k)).length ∧ Found g c q T (Reach g c q T k) js) ∧
    (∀ (p k : Nat) (em : ErrorMatrix) (ms : IndexMatches), p < g.n → (k ≠ 0 → g.Child p k ∧ 2 * (g.n - k) + 2 ≤ fuel) →
      1 ≤ fuel → EmOk em c q (g.path p) L (g.path p).length →
      ∃ em' js, LevIndex.searchSiblings t q e T fuel (link k) (if p = 0 then 0#16 else g.letter p)
          ((g.path p).length + 1) em ms = .ok (em', ms ++ js.map (md g c q)) ∧
        EmOk em' c q (g.path p) L (g.path p).length ∧
        Found g c q T (fun j => k ≠ 0 ∧ ∃ i, g.Child p i ∧ k ≤ i ∧ Reach g c q T i j) js) := by
  intro fuel
  induction fuel with
  | zero =>
    refine ⟨fun k em ms _ _ h => absurd h (by omega), fun p k em ms _ _ h => absurd h (by omega)⟩
  | succ fuel ih =>
    obtain ⟨ihr, ihs⟩ := ih
    constructor
    · intro k em ms h1 hk hfuel hem
      have hpl := h.par_lt k h1 hk
      have hpath := h.path_eq k h1 hk
      have hlen : (g.path k).length = (g.path (g.par k)).length + 1 := by rw [hpath]; simp
      have hLk := hL k hk
      have hem1 : EmOk em c q (g.path k) L (g.path (g.par k)).length := by rw [hpath]; exact hem.extend (Nat.le_refl _)
      obtain ⟨em1, e1, hok1⟩ := fillRow_spec hp hf hq hlen (by omega) hem1
      have hlet : (g.path k).getD (g.path (g.par k)).length 0 = g.letter k := by
        rw [hpath, List.getD_eq_getElem?_getD]; simp
      rw [hlet] at e1
      have hprev := prevLetter_path h (show g.par k < g.n by omega) (g.letter k)
      rw [← hpath] at hprev
      rw [← hprev] at e1
      rw [← hlen] at e1 hok1
      rw [← hlen]
      have etot : em1.totalError (g.path k).length = .ok (best c q (g.path k)) := by
        unfold ErrorMatrix.totalError
        rw [hok1.columns, idxSub_ok (by omega), Nat.add_sub_cancel]
        simp only [ok_bind]
        exact get_ok (by rw [hok1.rows]; omega) (by rw [hok1.columns]; omega) (hok1.row _ _ (Nat.le_refl _) (Nat.le_refl _))
      obtain ⟨mn, emn, hmn⟩ := minError_eq hok1 hLk T
      have ewd : t.getWordID (addr k) = .ok (g.word k) := rd_word h hk
      rw [LevIndex.searchRecursive, e1]
      simp only [ok_bind]
      rw [etot, ewd, emn]
      simp only [ok_bind]
      have hself : ∀ js', Found g c q T (fun j => RowOk c q T (g.path k) ∧ ∃ i, g.Child k i ∧ Reach g c q T i j) js' →
          ∃ js, (if best c q (g.path k) ≤ T ∧ g.word k ≠ INVALID_WORDID then
              IndexMatches.addMatch ms (g.word k) (best c q (g.path k)) else ms) ++ js'.map (md g c q) =
                ms ++ js.map (md g c q) ∧ Found g c q T (Reach g c q T k) js := by
        intro js' ⟨hnd, hmem⟩
        have hknot : k ∉ js' := by
          intro hx
          obtain ⟨_, _, i, hi, _, hpre, _⟩ := (hmem k).1 hx
          have := hpre.length_le
          rw [hi.path h] at this
          simp at this
          omega
        by_cases hhit : best c q (g.path k) ≤ T ∧ g.word k ≠ INVALID_WORDID
        · refine ⟨k :: js', ?_, List.nodup_cons.2 ⟨hknot, hnd⟩, ?_⟩
          · rw [if_pos hhit, IndexMatches.addMatch, List.map_cons, List.append_assoc]; rfl
          · intro j
            rw [List.mem_cons, hmem, reach_iff h hk]
            constructor
            · rintro (rfl | ⟨h1, h2⟩)
              · exact ⟨⟨hhit.2, hhit.1⟩, Or.inl rfl⟩
              · exact ⟨h1, Or.inr h2⟩
            · rintro ⟨h1, rfl | h2⟩
              · exact Or.inl rfl
              · exact Or.inr ⟨h1, h2⟩
        · refine ⟨js', by rw [if_neg hhit], hnd, ?_⟩
          intro j
          rw [hmem, reach_iff h hk]
          constructor
          · rintro ⟨h1, h2⟩; exact ⟨h1, Or.inr h2⟩
          · rintro ⟨hh, rfl | h2⟩
            · exact absurd ⟨hh.2, hh.1⟩ hhit
            · exact ⟨hh, h2⟩
      by_cases hro : RowOk c q T (g.path k)
      · rw [if_pos (hmn.1 hro)]
        obtain ⟨j, hj, elink⟩ := h.rd_link hk (Or.inl rfl : g.IsCell k k)
        have esib : t.getSiblingList (addr k) = .ok (link j) := by
          rw [cell_self] at elink; exact elink
        rw [esib]
        simp only [ok_bind]
        have hk0 : k ≠ 0 := by omega
        have hchild : j ≠ 0 → g.Child k j := by
          intro hj0
          rcases hj with ⟨hx, _⟩ | ⟨a, b, c, _⟩
          · exact absurd hx hj0
          · exact ⟨a, b, c⟩
        obtain ⟨em2, js', e2, hok2, hfound⟩ := ihs k j em1 (if best c q (g.path k) ≤ T ∧ g.word k ≠ INVALID_WORDID then
              IndexMatches.addMatch ms (g.word k) (best c q (g.path k)) else ms) hk
            (fun hj0 => ⟨hchild hj0, by have := hchild hj0; unfold Ghost.Child at this; omega⟩) (by omega) hok1
        rw [if_neg hk0] at e2
        rw [e2]
        have hf' : Found g c q T (fun j => RowOk c q T (g.path k) ∧ ∃ i, g.Child k i ∧ Reach g c q T i j) js' := by
          refine ⟨hfound.1, ?_⟩
          intro x
          rw [hfound.2]
          refine and_congr_right fun _ => ?_
          constructor
          · rintro ⟨_, i, hi, _, hr⟩; exact ⟨hro, i, hi, hr⟩
          · rintro ⟨_, i, hi, hr⟩
            rcases hj with ⟨_, hx⟩ | ⟨_, _, _, hx⟩
            · exact absurd hi.2.2 (hx i hi.1 hi.2.1)
            · refine ⟨by omega, i, hi, ?_, hr⟩
              rcases Nat.lt_or_ge i j with hij | hij
              · exact absurd hi.2.2 (hx i hi.1 hij)
              · exact hij
        obtain ⟨js, e3, hf3⟩ := hself js' hf'
        refine ⟨em2, js, by rw [e3], ?_, hf3⟩
        rw [hpath] at hok2
        exact hok2.restrict (by simp) (Nat.le_refl _)
      · rw [if_neg (fun hx => hro (hmn.2 hx))]
        obtain ⟨js, e3, hf3⟩ := hself [] ⟨List.nodup_nil, fun j => ⟨fun hx => (List.not_mem_nil hx).elim, fun hx => absurd hx.2.1 hro⟩⟩
        refine ⟨em1, js, ?_, ?_, hf3⟩
        · rw [← e3]; simp
        · rw [hpath] at hok1
          exact hok1.restrict (by simp) (Nat.le_refl _)
    · intro p k em ms hpn hkc _ hem
      rw [LevIndex.searchSiblings]
      by_cases hk0 : k = 0
      · subst hk0
        rw [if_pos (link_eq_zero.2 rfl)]
        exact ⟨em, [], by simp, hem, List.nodup_nil, fun j => ⟨fun hx => (List.not_mem_nil hx).elim, fun hx => absurd rfl hx.2.1⟩⟩
      · obtain ⟨hch, hfuel⟩ := hkc hk0
        have hcell : g.IsCell p k := Or.inr hch
        obtain ⟨hpk, hkn, hpar⟩ := hch
        rw [if_neg (fun hx => hk0 (link_eq_zero.1 hx))]
        have hlc : link k = cell p k := by rw [link, if_neg hk0, cell, if_neg (by omega)]
        have elet : t.getLetter (link k) = .ok (g.letter k) := by
          rw [hlc, Trie.getLetter, h.rd_cellLetter hpn hcell, Ghost.cellLetter, if_neg (by omega)]
        have echild : t.getChild (link k) = .ok (addr k) := by
          rw [Trie.getChild, link, if_neg hk0]
          have hm := h.bound
          have := addr_cases k
          rw [Trie.rd32_ok (by omega), h.mchild k (by omega) hkn]
        obtain ⟨j, hj, elink⟩ := h.rd_link hpn hcell
        have enext : t.getNextSibling (link k) = .ok (link j) := by rw [hlc]; exact elink
        rw [elet, echild]
        simp only [ok_bind]
        obtain ⟨em1, js1, e1, hok1, hf1⟩ := ihr k em ms (by omega) hkn (by omega) (by rw [hpar]; exact hem)
        rw [hpar] at e1 hok1
        rw [e1]
        simp only [ok_bind]
        rw [enext]
        simp only [ok_bind]
        have hchild : j ≠ 0 → g.Child p j ∧ k < j := by
          intro hj0
          rcases hj with ⟨hx, _⟩ | ⟨a, b, c, _⟩
          · exact absurd hx hj0
          · exact ⟨⟨by omega, b, c⟩, a⟩
        obtain ⟨em2, js2, e2, hok2, hf2⟩ := ihs p j em1 (ms ++ js1.map (md g c q)) hpn
          (fun hj0 => ⟨(hchild hj0).1, by have := hchild hj0; unfold Ghost.Child at this; omega⟩) (by omega) hok1
        refine ⟨em2, js1 ++ js2, by rw [e2, List.map_append, List.append_assoc], hok2, ?_, ?_⟩
        · rw [List.nodup_append]
          refine ⟨hf1.1, hf2.1, ?_⟩
          intro a ha b hb hab
          subst hab
          obtain ⟨_, _, hpre, _⟩ := (hf1.2 a).1 ha
          obtain ⟨_, hj0, i, hi, hji, _, hpre2, _⟩ := (hf2.2 a).1 hb
          have := child_unique h ⟨hpk, hkn, hpar⟩ hi hpre hpre2
          have := (hchild hj0).2
          omega
        · intro x
          rw [List.mem_append, hf1.2, hf2.2, ← and_or_left]
          refine and_congr_right fun _ => ?_
          constructor
          · rintro (hr | ⟨hj0, i, hi, hji, hr⟩)
            · exact ⟨hk0, k, ⟨hpk, hkn, hpar⟩, Nat.le_refl _, hr⟩
            · have := (hchild hj0).2
              exact ⟨hk0, i, hi, by omega, hr⟩
          · rintro ⟨_, i, hi, hki, hr⟩
            by_cases hik : i = k
            · subst hik; exact Or.inl hr
            · right
              rcases hj with ⟨_, hx⟩ | ⟨_, _, _, hx⟩
              · exact absurd hi.2.2 (hx i (by omega) hi.2.1)
              · refine ⟨by omega, i, hi, ?_, hr⟩
                rcases Nat.lt_or_ge i j with hij | hij
                · exact absurd hi.2.2 (hx i (by omega) hij)
                · exact hij

end Columbus
