import Verif.Spec.Tools
import Verif.Proofs.MatcherInv
import Verif.Proofs.FindWords
/-
Lemmas about tools/queryindex.cc.
-/

namespace Columbus
open Columbus.Spec

namespace QueryIndex

/-! ### Lines -/

theorem fgets_line : ∀ (n : Nat) (l r : Bytes), 0x0a ∉ l → l.length < n → fgets n (l ++ 0x0a :: r) = (l ++ [0x0a], r) := by
  intro n
  induction n with
  | zero => intro l r _ h; omega
  | succ n ih =>
    intro l r hn hl
    cases l with
    | nil => simp [fgets]
    | cons b l =>
      simp only [List.mem_cons, not_or] at hn
      simp only [List.length_cons] at hl
      rw [List.cons_append, fgets, if_neg (fun h => hn.1 h.symm), ih l r hn.2 (by omega)]
      rfl

theorem fgets_full : ∀ (n : Nat) (l r : Bytes), 0x0a ∉ l → l.length = n → fgets n (l ++ r) = (l, r) := by
  intro n
  induction n with
  | zero =>
    intro l r _ h
    rw [List.length_eq_zero_iff] at h; subst h; rfl
  | succ n ih =>
    intro l r hn hl
    cases l with
    | nil => simp at hl
    | cons b l =>
      simp only [List.mem_cons, not_or] at hn
      simp only [List.length_cons] at hl
      rw [List.cons_append, fgets, if_neg (fun h => hn.1 h.symm), ih l r hn.2 (by omega)]

theorem fgets_last : ∀ (n : Nat) (l : Bytes), 0x0a ∉ l → l.length ≤ n → fgets n l = (l, []) := by
  intro n
  induction n with
  | zero =>
    intro l _ h
    have : l = [] := List.length_eq_zero_iff.1 (by omega)
    subst this; rfl
  | succ n ih =>
    intro l hn hl
    cases l with
    | nil => rfl
    | cons b l =>
      simp only [List.mem_cons, not_or] at hn
      simp only [List.length_cons] at hl
      rw [fgets, if_neg (fun h => hn.1 h.symm), ih l hn.2 (by omega)]

theorem text_of {s : Bytes} (h : 0 ∉ s) : s.takeWhile (· != 0) = s :=
  takeWhile_all fun b hb => by
    have : b ≠ 0 := fun h0 => h (h0 ▸ hb)
    simp [this]

theorem chop_line [Build] {l : Bytes} (h : 0 ∉ l) : chop (l ++ [0x0a]) = .ok l := by
  unfold chop
  rw [text_of (by simp [h])]
  simp [cassert]

theorem chop_broken [Build] {l : Bytes} (h : 0 ∉ l) (hn : 0x0a ∉ l) (hne : l ≠ []) :
    chop l = if Build.asserts then .error .assertion else .ok l.dropLast := by
  unfold chop
  rw [text_of h]
  obtain ⟨x, b, rfl⟩ := List.eq_nil_or_concat l |>.resolve_left hne
  have hb : b ≠ 0x0a := by
    intro he; subst he; exact hn (by simp)
  simp only [List.concat_eq_append, List.getLast?_append, List.getLast?_singleton, Option.some_or, List.dropLast_concat]
  rw [cassert]
  simp only [decide_eq_false hb]
  cases Build.asserts <;> rfl

/-! ### Numbers -/

theorem isSpace_iff (b : Nat) : isSpace b = true ↔ b = 0x20 ∨ 0x09 ≤ b ∧ b ≤ 0x0d := by simp [isSpace]
theorem isDigit_iff (b : Nat) : isDigit b = true ↔ 0x30 ≤ b ∧ b ≤ 0x39 := by simp [isDigit]

theorem mem_takeWhile {α : Type} {p : α → Bool} {l : List α} {x : α} (h : x ∈ l.takeWhile p) : p x = true := by
  induction l with
  | nil => simp at h
  | cons a l ih =>
    rw [List.takeWhile_cons] at h
    split at h
    · rcases List.mem_cons.1 h with rfl | h
      · assumption
      · exact ih h
    · simp at h

theorem takeWhile_prefix {α : Type} {p : α → Bool} {a b : List α} (ha : ∀ x ∈ a, p x = true)
    (hb : ∀ x, b.head? = some x → p x = false) : (a ++ b).takeWhile p = a ∧ (a ++ b).dropWhile p = b := by
  induction a with
  | nil =>
    cases b with
    | nil => exact ⟨rfl, rfl⟩
    | cons x b => simp [hb x rfl]
  | cons x a ih =>
    have := ih (fun y hy => ha y (by simp [hy]))
    simp [ha x (by simp), this.1, this.2]

theorem value_eq (ds : Bytes) (h : ∀ b ∈ ds, 0x30 ≤ b ∧ b ≤ 0x39) :
    ds.foldl (fun (v : Int) (b : Nat) => 10 * v + ((b : Int) - 48)) 0 = (decimal ds : Int) := by
  unfold decimal
  have : ∀ (ds : Bytes) (v : Nat), (∀ b ∈ ds, 0x30 ≤ b ∧ b ≤ 0x39) →
      ds.foldl (fun (v : Int) (b : Nat) => 10 * v + ((b : Int) - 48)) (v : Int) =
        ((ds.foldl (fun v b => 10 * v + (b - 0x30)) v : Nat) : Int) := by
    intro ds
    induction ds with
    | nil => intro v _; rfl
    | cons b ds ih =>
      intro v hb
      rw [List.foldl_cons, List.foldl_cons, ← ih _ (fun x hx => hb x (by simp [hx]))]
      congr 1
      have := hb b (by simp)
      omega
  exact this ds 0 h

/-- The number after the sign. -/
def signed (negative : Bool) (s : Bytes) : M Int :=
  let v : Int := (s.takeWhile isDigit).foldl (fun (v : Int) (b : Nat) => 10 * v + ((b : Int) - 48)) 0
  let v := if negative then -v else v
  if -2^31 ≤ v ∧ v < 2^31 then .ok v else .error .ub

theorem atoi_eq (s : Bytes) : atoi s = match s.dropWhile isSpace with
    | 0x2d :: r => signed true r
    | 0x2b :: r => signed false r
    | s => signed false s := by
  unfold atoi
  generalize s.dropWhile isSpace = s
  dsimp only
  split <;> split <;> simp_all [signed]

theorem signed_eq {negative : Bool} {ds rest : Bytes} (h : ∀ b ∈ ds, 0x30 ≤ b ∧ b ≤ 0x39)
    (hr : ∀ b, rest.head? = some b → ¬ (0x30 ≤ b ∧ b ≤ 0x39)) :
    signed negative (ds ++ rest) = if -2^31 ≤ (if negative then -(decimal ds : Int) else decimal ds) ∧
      (if negative then -(decimal ds : Int) else decimal ds) < 2^31 then
        .ok (if negative then -(decimal ds : Int) else decimal ds) else .error .ub := by
  unfold signed
  rw [(takeWhile_prefix (p := isDigit) (fun b hb => (isDigit_iff b).2 (h b hb)) (fun b hb => by
    rw [Bool.eq_false_iff, Ne, isDigit_iff]; exact hr b hb)).1, value_eq ds h]

theorem atoi_iff (s : Bytes) (T : Int) : atoi s = .ok T ↔ Limit s T := by
  constructor
  · intro h
    rw [atoi_eq] at h
    have hs : s = s.takeWhile isSpace ++ s.dropWhile isSpace := (List.takeWhile_append_dropWhile).symm
    have hsp : ∀ b ∈ s.takeWhile isSpace, b = 0x20 ∨ 0x09 ≤ b ∧ b ≤ 0x0d := fun b hb =>
      (isSpace_iff b).1 (mem_takeWhile hb)
    have hhead : ∀ b, (s.dropWhile isSpace).head? = some b → isSpace b = false := by
      intro b hb
      have := List.head?_dropWhile_not isSpace s
      rw [hb] at this
      simpa using this
    generalize s.takeWhile isSpace = blanks at hs hsp
    generalize s.dropWhile isSpace = tail at h hs hhead
    have hdig : ∀ r : Bytes, r = r.takeWhile isDigit ++ r.dropWhile isDigit ∧
        (∀ b ∈ r.takeWhile isDigit, 0x30 ≤ b ∧ b ≤ 0x39) ∧
        (∀ b, (r.dropWhile isDigit).head? = some b → ¬ (0x30 ≤ b ∧ b ≤ 0x39)) := by
      intro r
      refine ⟨(List.takeWhile_append_dropWhile).symm, fun b hb => (isDigit_iff b).1 (mem_takeWhile hb), ?_⟩
      intro b hb
      have := List.head?_dropWhile_not isDigit r
      rw [hb] at this
      rw [← isDigit_iff]
      simpa using this
    have hsig : ∀ (negative : Bool) (r : Bytes), signed negative r = .ok T →
        ∃ ds rest, r = ds ++ rest ∧ (∀ b ∈ ds, 0x30 ≤ b ∧ b ≤ 0x39) ∧
        (∀ b, rest.head? = some b → ¬ (0x30 ≤ b ∧ b ≤ 0x39)) ∧
        T = (if negative then -(decimal ds : Int) else decimal ds) ∧ -2^31 ≤ T ∧ T < 2^31 := by
      intro negative r hr
      obtain ⟨h1, h2, h3⟩ := hdig r
      generalize r.takeWhile isDigit = ds at h1 h2
      generalize r.dropWhile isDigit = rest at h1 h3
      rw [h1, signed_eq h2 h3] at hr
      refine ⟨ds, rest, h1, h2, h3, ?_⟩
      generalize (if negative then -(decimal ds : Int) else decimal ds) = v at hr
      by_cases hb : -2^31 ≤ v ∧ v < 2^31
      · rw [if_pos hb] at hr
        injection hr with hr
        subst hr
        exact ⟨rfl, hb⟩
      · rw [if_neg hb] at hr; cases hr
    split at h
    · obtain ⟨ds, rest, rfl, h2, h3, h4, h5, h6⟩ := hsig _ _ h
      refine ⟨blanks, [0x2d], ds, rest, by rw [hs]; simp, hsp, h2, Or.inr (Or.inr ⟨rfl, ?_⟩), h3, h5, h6⟩
      simpa using h4
    · obtain ⟨ds, rest, rfl, h2, h3, h4, h5, h6⟩ := hsig _ _ h
      refine ⟨blanks, [0x2b], ds, rest, by rw [hs]; simp, hsp, h2, Or.inr (Or.inl ⟨rfl, ?_⟩), h3, h5, h6⟩
      simpa using h4
    · rename_i hm hp
      obtain ⟨ds, rest, rfl, h2, h3, h4, h5, h6⟩ := hsig _ _ h
      refine ⟨blanks, [], ds, rest, by rw [hs]; simp, hsp, h2, Or.inl ⟨rfl, ?_, ?_, ?_, ?_⟩, h3, h5, h6⟩
      · simpa using h4
      · intro hc
        obtain ⟨r, hr⟩ := List.head?_eq_some_iff.1 hc
        exact hp r hr
      · intro hc
        obtain ⟨r, hr⟩ := List.head?_eq_some_iff.1 hc
        exact hm r hr
      · intro b hb
        have := hhead b hb
        rw [Bool.eq_false_iff, Ne, isSpace_iff] at this
        omega
  · rintro ⟨blanks, sign, ds, rest, rfl, h1, h2, h3, h4, h5, h6⟩
    rw [atoi_eq, List.append_assoc, List.append_assoc]
    have hsp : ∀ x ∈ blanks, isSpace x = true := fun x hx => (isSpace_iff x).2 (h1 x hx)
    rcases h3 with ⟨rfl, hT, g1, g2, g3⟩ | ⟨rfl, hT⟩ | ⟨rfl, hT⟩
    · rw [List.nil_append, (takeWhile_prefix hsp (fun b hb => by
        have := g3 b hb
        rw [Bool.eq_false_iff, Ne, isSpace_iff]; omega)).2]
      split
      · rename_i r he; rw [he] at g2; exact absurd rfl g2
      · rename_i r he; rw [he] at g1; exact absurd rfl g1
      · rw [signed_eq h2 h4]
        simp only [Bool.false_eq_true, if_false]
        rw [← hT, if_pos ⟨h5, h6⟩]
    · rw [(takeWhile_prefix hsp (by simp [isSpace])).2]
      simp only [List.singleton_append]
      rw [signed_eq h2 h4]
      simp only [Bool.false_eq_true, if_false]
      rw [← hT, if_pos ⟨h5, h6⟩]
    · rw [(takeWhile_prefix hsp (by simp [isSpace])).2]
      simp only [List.singleton_append]
      rw [signed_eq h2 h4]
      simp only [if_true]
      rw [← hT, if_pos ⟨h5, h6⟩]

theorem atoi_or (s : Bytes) : (∃ T, atoi s = .ok T) ∨ atoi s = .error .ub := by
  have : ∀ negative r, (∃ T, signed negative r = .ok T) ∨ signed negative r = .error .ub := by
    intro negative r
    unfold signed
    dsimp only
    generalize (if negative = true then _ else _ : Int) = v
    by_cases hv : -2^31 ≤ v ∧ v < 2^31
    · rw [if_pos hv]; exact Or.inl ⟨_, rfl⟩
    · rw [if_neg hv]; exact Or.inr rfl
  rw [atoi_eq]
  split <;> exact this _ _

/-! ### Loading -/

/-- The insertions for a list of words. -/
def history (names ws : List Word) : IndexHistory := ws.map fun w => (w, names.idxOf w)

/-- The words `ws` have been loaded. -/
structure Loaded [Build] (osI osS : Nat → Bool) (ws names : List Word) (ind : LevIndex) (s : WordStore) : Prop where
  store : Names s osS names
  mem : ∀ w, w ∈ names ↔ w ∈ ws
  letters : lettersIn names ≤ lettersIn ws
  index : ∃ g, LInv ind g (history names ws) ∧ g.n ≤ 1 + lettersIn ws
  os : ind.trie.os = osI
  done : Columbus.Spec.built osI (history names ws) = .ok ind

theorem Loaded.new [Build] (osI osS : Nat → Bool) :
    (LevIndex.new osI = .error .runtimeError ∧ osI 1024 = false) ∨
    ∃ ind, LevIndex.new osI = .ok ind ∧
      ((WordStore.new osS = .error .runtimeError ∧ osS 1024 = false) ∨
        ∃ s, WordStore.new osS = .ok s ∧ Loaded osI osS [] [] ind s) := by
  rcases LInv.new osI with ⟨h1, h2⟩ | ⟨ind, e, hi, hos, _⟩
  · exact Or.inl ⟨h2, h1⟩
  · right
    refine ⟨ind, e, ?_⟩
    rcases SInv.new osS with ⟨h1, h2⟩ | ⟨s, es, hs, hoss, _⟩
    · exact Or.inl ⟨h2, h1⟩
    · right
      refine ⟨s, es, ⟨⟨_, hs, Nat.le_refl _⟩, by simp, hoss⟩, by simp, Nat.le_refl _, ⟨_, hi, Nat.le_refl _⟩, hos, ?_⟩
      rw [Columbus.Spec.built, e]; rfl

theorem insertAll_snoc [Build] (w : Word) (i : WordID) : ∀ (h : IndexHistory) (ix : LevIndex),
    insertAll ix (h ++ [(w, i)]) = (insertAll ix h >>= fun ix => ix.insertWord w i) := by
  intro h
  induction h with
  | nil =>
    intro ix
    rw [List.nil_append, insertAll, insertAll, ok_bind]
    simp only [insertAll]
    cases ix.insertWord w i <;> rfl
  | cons p h ih =>
    intro ix
    rw [List.cons_append, insertAll, insertAll]
    cases ix.insertWord p.1 p.2 with
    | error f => rfl
    | ok ix1 => rw [ok_bind, ok_bind, ih]

theorem built_snoc [Build] {os : Nat → Bool} {h : IndexHistory} {ix : LevIndex} (hb : Columbus.Spec.built os h = .ok ix)
    (w : Word) (i : WordID) : Columbus.Spec.built os (h ++ [(w, i)]) = ix.insertWord w i := by
  unfold Columbus.Spec.built at *
  cases e : LevIndex.new os with
  | error f => rw [e] at hb; cases hb
  | ok ix0 =>
    rw [e, ok_bind] at hb
    rw [ok_bind, insertAll_snoc, hb, ok_bind]

variable [Build] {osI osS : Nat → Bool} {ws names : List Word} {ind : LevIndex} {s : WordStore}

omit [Build] in
theorem history_prefix {names' : List Word} (hp : names <+: names') (hm : ∀ w ∈ ws, w ∈ names) :
    history names' ws = history names ws := by
  unfold history
  apply List.map_congr_left
  intro w hw
  rw [idxOf_prefix hp (hm w hw)]

/-- One more word. -/
theorem Loaded.step (h : Loaded osI osS ws names ind s) {w : Word} (hw : GoodWord w) :
    (s.getID w = .error .runtimeError ∧ StorageRefused osS (lettersIn (ws ++ [w]))) ∨
    ∃ s' id, s.getID w = .ok (s', id) ∧
      ((ind.insertWord w id = .error .runtimeError ∧ StorageRefused osI (lettersIn (ws ++ [w]))) ∨
        ∃ ind', ind.insertWord w id = .ok ind' ∧ Loaded osI osS (ws ++ [w]) (note names w) ind' s') := by
  have hl : lettersIn (ws ++ [w]) = lettersIn ws + w.length := by
    rw [lettersIn_append, lettersIn_cons, lettersIn_nil]; omega
  rcases h.store.getID (Or.inr hw) with ⟨h0, _⟩ | ⟨_, e, hr⟩ | ⟨_, s', e, hn⟩
  · exact absurd h0 hw.nonempty
  · left; exact ⟨e, hr.mono (by rw [hl]; have := h.letters; omega)⟩
  · right
    refine ⟨s', _, e, ?_⟩
    have hmem : ∀ v, v ∈ note names w ↔ v ∈ ws ++ [w] := by
      intro v; rw [mem_note, h.mem, List.mem_append, List.mem_singleton]
    have hh : history (note names w) (ws ++ [w]) = history names ws ++ [(w, (note names w).idxOf w)] := by
      rw [history, List.map_append, ← history, history_prefix (note_prefix names w) (fun v hv => (h.mem v).2 hv)]
      rfl
    have hok : IndexHistory.Ok (history names ws ++ [(w, (note names w).idxOf w)]) := by
      rw [← hh]; exact history_ok hn (fun v hv => (hmem v).2 hv)
    obtain ⟨g, hi, hg⟩ := h.index
    rcases hi.insert hok with ⟨e2, hr⟩ | ⟨ind', g', e2, hi', hg', hos, _⟩
    · left
      exact ⟨e2, refusal_storage h.os (hr.mono rfl (Nat.le_refl _) (by rw [hl]; omega))⟩
    · right
      refine ⟨ind', e2, hn, hmem, ?_, ⟨g', by rw [hh]; exact hi', by rw [hl]; omega⟩, by rw [hos, h.os], ?_⟩
      · have := lettersIn_note names w; have := h.letters; rw [hl]; omega
      · rw [hh, built_snoc h.done, e2]

omit [Build] in
theorem fileOf_cons (l : Bytes) (ls : List Bytes) : fileOf (l :: ls) = l ++ 0x0a :: fileOf ls := by simp [fileOf]

/-- One round of the loop. -/
theorem loadLoop_line [Icu] {l r : Bytes} {w : Word} {fuel : Nat} (h0 : 0 ∉ l) (hn : 0x0a ∉ l) (hlen : l.length ≤ 1022)
    (hw : Word.ofUtf8 l = .ok w) (ind : LevIndex) (s : WordStore) :
    loadLoop (fuel + 1) (l ++ 0x0a :: r) ind s = (do
      let (s, id) ← s.getID w
      let ind ← ind.insertWord w id
      loadLoop fuel r ind s) := by
  obtain ⟨b, rest, he⟩ : ∃ b rest, l ++ 0x0a :: r = b :: rest := by
    cases l with
    | nil => exact ⟨_, _, rfl⟩
    | cons b l => exact ⟨_, _, rfl⟩
  rw [he, loadLoop, ← he, fgets_line 1023 l r hn (by omega)]
  simp only [chop_line h0, ok_bind, hw]

theorem loadLoop_bad [Icu] {l r : Bytes} {f : Fault} {fuel : Nat} (h0 : 0 ∉ l) (hn : 0x0a ∉ l) (hlen : l.length ≤ 1022)
    (hw : Word.ofUtf8 l = .error f) {ind : LevIndex} {s : WordStore} :
    loadLoop (fuel + 1) (l ++ 0x0a :: r) ind s = .error f := by
  obtain ⟨b, rest, he⟩ : ∃ b rest, l ++ 0x0a :: r = b :: rest := by
    cases l with
    | nil => exact ⟨_, _, rfl⟩
    | cons b l => exact ⟨_, _, rfl⟩
  rw [he, loadLoop, ← he, fgets_line 1023 l r hn (by omega)]
  simp only [chop_line h0, ok_bind, hw]
  rfl

/-- A line that the buffer holds without its newline. -/
theorem loadLoop_broken [Icu] {l r r' : Bytes} {fuel : Nat} (hg : fgets 1023 (l ++ r) = (l, r')) (h0 : 0 ∉ l)
    (hn : 0x0a ∉ l) (hne : l ≠ []) {ind : LevIndex} {s : WordStore} :
    loadLoop (fuel + 1) (l ++ r) ind s = if Build.asserts then .error .assertion else (do
      let w ← Word.ofUtf8 l.dropLast
      let (s, id) ← s.getID w
      let ind ← ind.insertWord w id
      loadLoop fuel r' ind s) := by
  obtain ⟨b, rest, he⟩ : ∃ b rest, l ++ r = b :: rest := by
    cases l with
    | nil => exact absurd rfl hne
    | cons b l => exact ⟨_, _, rfl⟩
  rw [he, loadLoop, ← he, hg]
  simp only [chop_broken h0 hn hne]
  cases Build.asserts <;> rfl

/-- The loop on good lines. -/
theorem Loaded.lines [Icu] : ∀ (ls : List Bytes) (ws names : List Word) (ind : LevIndex) (s : WordStore) (ws' : List Word)
    (r : Bytes) (fuel : Nat), Loaded osI osS ws names ind s → (∀ l ∈ ls, WordLine l ∧ l.length ≤ 1022) →
    List.Forall₂ (fun l w => Word.ofUtf8 l = .ok w) ls ws' →
    (loadLoop (fuel + ls.length) (fileOf ls ++ r) ind s = .error .runtimeError ∧
      (StorageRefused osI (lettersIn (ws ++ ws')) ∨ StorageRefused osS (lettersIn (ws ++ ws')))) ∨
    ∃ ind' s' names', loadLoop (fuel + ls.length) (fileOf ls ++ r) ind s = loadLoop fuel r ind' s' ∧
      Loaded osI osS (ws ++ ws') names' ind' s' := by
  intro ls
  induction ls with
  | nil =>
    intro ws names ind s ws' r fuel h _ hf
    cases hf
    right
    exact ⟨ind, s, names, rfl, by rw [List.append_nil]; exact h⟩
  | cons l ls ih =>
    intro ws names ind s ws' r fuel h hl hf
    cases hf with
    | @cons _ w _ ws'' hw hf =>
    obtain ⟨hline, hlen⟩ := hl l (by simp)
    have hn : 0x0a ∉ l := fun hm => hline.noBlank _ hm (by unfold IsBlank; omega)
    have e1 : loadLoop (fuel + (l :: ls).length) (fileOf (l :: ls) ++ r) ind s = (do
        let (s, id) ← s.getID w
        let ind ← ind.insertWord w id
        loadLoop (fuel + ls.length) (fileOf ls ++ r) ind s) := by
      rw [fileOf_cons, List.append_assoc, List.cons_append, List.length_cons, ← Nat.add_assoc]
      exact loadLoop_line hline.noNul hn hlen hw ind s
    have hgood := goodWord_ofUtf8 hline.noNul hline.nonempty hw
    have el : ws ++ w :: ws'' = ws ++ [w] ++ ws'' := by simp
    have hle : lettersIn (ws ++ [w]) ≤ lettersIn (ws ++ w :: ws'') := by rw [el, lettersIn_append (ws ++ [w])]; omega
    rw [e1]
    rcases h.step hgood with ⟨e2, hr⟩ | ⟨s1, id, e2, ⟨e3, hr⟩ | ⟨ind1, e3, h1⟩⟩
    · left; rw [e2]; exact ⟨rfl, Or.inr (hr.mono hle)⟩
    · left; rw [e2, ok_bind]; dsimp only; rw [e3]; exact ⟨rfl, Or.inl (hr.mono hle)⟩
    · rw [e2, ok_bind]; dsimp only; rw [e3, ok_bind, el]
      exact ih _ _ _ _ _ _ _ h1 (fun l' hl' => hl l' (by simp [hl'])) hf

end QueryIndex
end Columbus
