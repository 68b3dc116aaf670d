import Verif.Proofs.MatcherInv
/-
Indexing a corpus.
-/

namespace Columbus
open Spec ErrorValues

/-- The exception of indexing words with an empty one among them. -/
def emptyFault (b : Bool) : Option Fault := if b then some .outOfRange else none

theorem emptyFault_false : emptyFault false = none := rfl

theorem takeWhile_nonempty {ws : WordList} (h : [] ∉ ws) : ws.takeWhile (fun w => !w.isEmpty) = ws := by
  induction ws with
  | nil => rfl
  | cons w ws ih =>
    simp only [List.mem_cons, not_or] at h
    have hw : (!w.isEmpty) = true := by
      cases w with
      | nil => exact absurd rfl h.1
      | cons _ _ => rfl
    rw [List.takeWhile_cons, hw, if_pos rfl, ih h.2]

theorem mem_note_list {names ws : List Word} {w : Word} (hw : w ∈ ws) {v : Word} (h : v ∈ note names w) : v ∈ names ∨ v ∈ ws := by
  rcases mem_note.1 h with h | rfl
  · exact Or.inl h
  · exact Or.inr hw

theorem words_sub (H T : MatcherHistory) : ∀ w ∈ H.words, w ∈ MatcherHistory.words (H ++ T) := by
  intro w hw
  simp only [MatcherHistory.words, List.flatMap_append, List.mem_append] at hw ⊢
  exact Or.inl hw

theorem words_sub₁ (H : MatcherHistory) (d : DocumentID) (f : Word) (n : Nat) (done ws : WordList) :
    ∀ w ∈ MatcherHistory.words (H ++ [⟨d, f, n, done⟩]), w ∈ MatcherHistory.words (H ++ [⟨d, f, n, done ++ ws⟩]) := by
  intro w hw
  simp only [MatcherHistory.words, List.flatMap_append, List.mem_append, List.flatMap_cons, List.flatMap_nil, List.append_nil] at hw ⊢
  rcases hw with hw | hw
  · exact Or.inl hw
  · exact Or.inr (Or.inl hw)

theorem MInv.indexWords [Build] [Icu] {H : MatcherHistory} {d : DocumentID} {f : Word} {n : Nat} (ws : WordList) :
    ∀ (m : Matcher) (names : List Word) (done : WordList), MInv m (H ++ [⟨d, f, n, done⟩]) names →
    (∀ w ∈ ws, Usable w) →
    (∃ m', Matcher.indexWords d (names.idxOf f) m ws = (m', some .runtimeError) ∧
      MLost m.e m.os (H ++ [⟨d, f, n, done⟩]) (H ++ [⟨d, f, n, done ++ ws⟩]) m' ∧
      StorageRefused m.os (lettersIn names + lettersIn H.words + lettersIn done + 2 * lettersIn ws)) ∨
    ∃ m' names', Matcher.indexWords d (names.idxOf f) m ws = (m', emptyFault (decide ([] ∈ ws))) ∧
      MInv m' (H ++ [⟨d, f, n, done ++ ws.takeWhile (fun w => !w.isEmpty)⟩]) names' ∧ names <+: names' ∧
      (∀ v ∈ names', v ∈ names ∨ v ∈ ws.takeWhile (fun w => !w.isEmpty)) ∧ lettersIn names' ≤ lettersIn names + lettersIn ws ∧
      m'.os = m.os ∧ m'.e = m.e ∧ m'.weights = m.weights := by
  induction ws with
  | nil =>
    intro m names done h _
    right
    exact ⟨m, names, rfl, by simpa using h, List.prefix_refl _, fun v hv => Or.inl hv, by simp [lettersIn], rfl, rfl, rfl⟩
  | cons w ws ih =>
    intro m names done h hu
    have hf : f ∈ names := h.known f (MatcherHistory.mem_mentions.2 ⟨⟨d, f, n, done⟩, by simp, Or.inl rfl⟩)
    rw [Matcher.indexWords]
    rcases h.store.getID (hu w (by simp)) with ⟨rfl, e⟩ | ⟨_, e, hr⟩ | ⟨hne, s', e, hs⟩
    · right
      refine ⟨m, names, ?_, by simpa using h, List.prefix_refl _, fun v hv => Or.inl hv, by omega, rfl, rfl, rfl⟩
      simp only [e]; simp [emptyFault, WordStore.after]
    · left
      refine ⟨{ m with store := m.store.after .runtimeError }, by simp only [e], ⟨m, _, names, h, rfl, rfl, fun _ hw => hw, words_sub₁ H d f n done (w :: ws),
        Or.inr (Or.inl ⟨rfl, rfl⟩)⟩, hr.mono ?_⟩
      rw [lettersIn_cons]; omega
    · have h1 := h.noted hs
      have hidx : names.idxOf f = (note names w).idxOf f := (idxOf_prefix (note_prefix _ _) hf).symm
      have hw : w ∈ note names w := mem_note.2 (Or.inr rfl)
      have hl := lettersIn_note names w
      rw [hidx]
      rcases h1.addToIndex hw (m.stats.wordProcessed ((note names w).idxOf w)) with ⟨m', e2, hm, hr⟩ | ⟨ixs', ix', e2, hk, hfind, hix⟩
      · left
        refine ⟨m', by simp only [e, e2], hm.mono (fun _ hw => hw) (words_sub₁ H d f n done (w :: ws)), hr.mono ?_⟩
        rw [lettersIn_cons]; omega
      · have h3 := h1.word hw hk hfind hix
        rcases ih _ _ _ h3 (fun v hv => hu v (by simp [hv])) with ⟨m', e3, hm, hr⟩ | ⟨m', names', e3, h4, hp, hn, hl', c1, c2, c3⟩
        · left
          refine ⟨m', by simp only [e, e2, e3], hm.mono (words_sub₁ H d f n done [w]) (fun v hv => by simpa using hv), hr.mono ?_⟩
          rw [lettersIn_append, lettersIn_cons, lettersIn_cons, lettersIn_nil]; omega
        · right
          refine ⟨m', names', ?_, ?_, (note_prefix _ _).trans hp, ?_, ?_, c1, c2, c3⟩
          · simp only [e, e2, e3]
            have : (([] : Word) ∈ w :: ws) ↔ [] ∈ ws := by simp [Ne.symm hne]
            simp only [this]
          · have : (!w.isEmpty) = true := by simpa using hne
            rw [List.takeWhile_cons, this, if_pos rfl]
            simpa using h4
          · intro v hv
            have : (!w.isEmpty) = true := by simpa using hne
            rw [List.takeWhile_cons, this, if_pos rfl]
            rcases hn v hv with hv | hv
            · exact mem_note_list (by simp) hv
            · right; simp [hv]
          · rw [lettersIn_cons]; omega

theorem beforeEmpty_append (a b : MatcherHistory) :
    (NoEmpty a → beforeEmpty (a ++ b) = a ++ beforeEmpty b) ∧ (¬ NoEmpty a → beforeEmpty (a ++ b) = beforeEmpty a) := by
  induction a with
  | nil => exact ⟨fun _ => rfl, fun h => absurd (by intro x hx; cases hx) h⟩
  | cons x a ih =>
    rw [List.cons_append, beforeEmpty, beforeEmpty]
    by_cases h1 : x.field = []
    · rw [if_pos h1, if_pos h1]
      exact ⟨fun h => absurd h1 (h x (by simp)).1, fun _ => rfl⟩
    · rw [if_neg h1, if_neg h1]
      by_cases h2 : [] ∈ x.words
      · rw [if_pos h2, if_pos h2]
        exact ⟨fun h => absurd h2 (h x (by simp)).2, fun _ => rfl⟩
      · rw [if_neg h2, if_neg h2]
        have hx : NoEmpty (x :: a) ↔ NoEmpty a := by
          unfold NoEmpty
          simp only [List.forall_mem_cons]
          exact ⟨fun h => h.2, fun h => ⟨⟨h1, h2⟩, h⟩⟩
        rw [hx]
        exact ⟨fun h => by rw [ih.1 h]; rfl, fun h => by rw [ih.2 h]⟩

theorem beforeEmpty_self {a : MatcherHistory} (h : NoEmpty a) : beforeEmpty a = a := by
  have := (beforeEmpty_append a []).1 h
  simpa [beforeEmpty] using this

theorem noEmpty_cons {x : Indexed} {H : MatcherHistory} : NoEmpty (x :: H) ↔ (x.field ≠ [] ∧ [] ∉ x.words) ∧ NoEmpty H := by
  unfold NoEmpty; simp only [List.forall_mem_cons]

instance (H : MatcherHistory) : Decidable (NoEmpty H) := inferInstanceAs (Decidable (∀ _ ∈ _, _))

/-- The texts of a document. -/
def docTexts (d : DocumentID) (ts : List (Word × WordList)) : MatcherHistory := ts.map fun t => ⟨d, t.1, t.2.length, t.2⟩

theorem MInv.indexFields [Build] [Icu] {d : Document} (ts : List (Word × WordList)) :
    ∀ (m : Matcher) (H : MatcherHistory) (names : List Word), MInv m H names →
    (∀ t ∈ ts, d.getText t.1 = .ok t.2) → (∀ t ∈ ts, Usable t.1 ∧ ∀ w ∈ t.2, Usable w) →
    (∃ m', Matcher.indexFields d m (ts.map (·.1)) = (m', some .runtimeError) ∧ MLost m.e m.os H (H ++ docTexts d.id ts) m' ∧
      StorageRefused m.os (lettersIn names + lettersIn H.words + 2 * lettersIn (docTexts d.id ts).mentions)) ∨
    ∃ m' names', Matcher.indexFields d m (ts.map (·.1)) = (m', emptyFault (!decide (NoEmpty (docTexts d.id ts)))) ∧
      MInv m' (H ++ beforeEmpty (docTexts d.id ts)) names' ∧ names <+: names' ∧
      (∀ v ∈ names', v ∈ names ∨ v ∈ (beforeEmpty (docTexts d.id ts)).mentions) ∧
      lettersIn names' ≤ lettersIn names + lettersIn (docTexts d.id ts).mentions ∧
      m'.os = m.os ∧ m'.e = m.e ∧ m'.weights = m.weights := by
  induction ts with
  | nil =>
    intro m H names h _ _
    right
    refine ⟨m, names, ?_, by simpa [docTexts, beforeEmpty] using h, List.prefix_refl _, fun v hv => Or.inl hv, by omega, rfl, rfl, rfl⟩
    have : NoEmpty (docTexts d.id []) := by intro x hx; cases hx
    simp only [List.map_nil, Matcher.indexFields, this, decide_true]; rfl
  | cons t ts ih =>
    intro m H names h ht hu
    obtain ⟨f, ws⟩ := t
    have hment : (docTexts d.id ((f, ws) :: ts)).mentions = f :: ws ++ (docTexts d.id ts).mentions := by
      simp [docTexts, MatcherHistory.mentions]
    have hlet : lettersIn (docTexts d.id ((f, ws) :: ts)).mentions = f.length + lettersIn ws + lettersIn (docTexts d.id ts).mentions := by
      rw [hment, lettersIn_append, lettersIn_cons]
    have u1 : Usable f := (hu (f, ws) (by simp)).1
    have u2 : ∀ w ∈ ws, Usable w := (hu (f, ws) (by simp)).2
    have hdt : docTexts d.id ((f, ws) :: ts) = ⟨d.id, f, ws.length, ws⟩ :: docTexts d.id ts := rfl
    have et : d.getText f = .ok ws := ht (f, ws) (by simp)
    rw [List.map_cons, Matcher.indexFields]
    rcases h.store.getID u1 with ⟨h0, e⟩ | ⟨_, e, hr⟩ | ⟨hne, s', e, hs⟩
    · right
      subst h0
      refine ⟨m, names, ?_, ?_, List.prefix_refl _, fun v hv => Or.inl hv, by omega, rfl, rfl, rfl⟩
      · have : ¬ NoEmpty (docTexts d.id (([], ws) :: ts)) := by rw [hdt, noEmpty_cons]; simp
        simp only [e, this]; rfl
      · rw [hdt, beforeEmpty]; simpa using h
    · left
      exact ⟨{ m with store := m.store.after .runtimeError }, by simp only [e], ⟨m, _, names, h, rfl, rfl, fun _ hw => hw, words_sub H _, Or.inr (Or.inl ⟨rfl, rfl⟩)⟩,
        hr.mono (by rw [hlet]; omega)⟩
    · have h1 := h.noted hs
      have hf : f ∈ note names f := mem_note.2 (Or.inr rfl)
      have h2 := h1.start hf d.id ws.length
      have hl := lettersIn_note names f
      rcases h2.indexWords ws _ _ _ u2 with ⟨m', e2, hm, hr⟩ | ⟨m', names', e2, h3, hp, hn, hl', c1, c2, c3⟩
      · left
        refine ⟨m', by simp only [e, et, e2], hm.mono (words_sub H _) (fun v hv => ?_), hr.mono ?_⟩
        · rw [hdt]; simp only [MatcherHistory.words, List.flatMap_append, List.mem_append, List.flatMap_cons, List.flatMap_nil,
            List.append_nil, List.nil_append] at hv ⊢
          rcases hv with hv | hv
          · exact Or.inl hv
          · exact Or.inr (Or.inl hv)
        rw [hlet, lettersIn_nil]; omega
      · have hn' : ∀ v ∈ names', v ∈ names ∨ v = f ∨ v ∈ ws.takeWhile (fun w => !w.isEmpty) := by
          intro v hv
          rcases hn v hv with hv | hv
          · rcases mem_note.1 hv with hv | hv
            · exact Or.inl hv
            · exact Or.inr (Or.inl hv)
          · exact Or.inr (Or.inr hv)
        by_cases hmem : [] ∈ ws
        · right
          refine ⟨m', names', ?_, ?_, (note_prefix _ _).trans hp, ?_, ?_, c1, c2, c3⟩
          · have : ¬ NoEmpty (docTexts d.id ((f, ws) :: ts)) := by rw [hdt, noEmpty_cons]; simp [hmem]
            simp only [e, et, e2, this, hmem]; rfl
          · rw [hdt, beforeEmpty, if_neg hne, if_pos hmem]
            simpa using h3
          · intro v hv
            rw [hdt, beforeEmpty, if_neg hne, if_pos hmem]
            simp only [MatcherHistory.mentions, List.flatMap_cons, List.flatMap_nil, List.append_nil, List.mem_cons]
            exact hn' v hv
          · rw [hlet]; omega
        · rw [takeWhile_nonempty hmem, List.nil_append] at h3
          have hw : lettersIn (MatcherHistory.words (H ++ [⟨d.id, f, ws.length, ws⟩])) = lettersIn H.words + lettersIn ws := by
            simp [MatcherHistory.words, lettersIn_append]
          rcases ih m' _ names' h3 (fun t h => ht t (by simp [h])) (fun t h => hu t (by simp [h])) with
            ⟨m2, e3, hm, hr⟩ | ⟨m2, names2, e3, h4, hp2, hn2, hl2, d1, d2, d3⟩
          · left
            rw [c1, c2] at hm
            refine ⟨m2, by simp only [e, et, e2, hmem, decide_false, emptyFault_false, e3],
              hm.mono (words_sub H _) (fun v hv => by rw [hdt]; simpa using hv), ?_⟩
            rw [c1] at hr
            exact hr.mono (by rw [hlet, hw]; omega)
          · right
            refine ⟨m2, names2, ?_, ?_, ((note_prefix _ _).trans hp).trans hp2, ?_, ?_, ?_, ?_, ?_⟩
            · have : NoEmpty (docTexts d.id ((f, ws) :: ts)) ↔ NoEmpty (docTexts d.id ts) := by
                rw [hdt, noEmpty_cons]; simp [hne, hmem]
              simp only [e, et, e2, hmem, decide_false, emptyFault_false, e3, this]
            · rw [hdt, beforeEmpty, if_neg hne, if_neg hmem]
              simpa using h4
            · intro v hv
              rw [hdt, beforeEmpty, if_neg hne, if_neg hmem]
              rw [takeWhile_nonempty hmem] at hn'
              simp only [MatcherHistory.mentions, List.flatMap_cons, List.cons_append, List.mem_cons, List.mem_append]
              rcases hn2 v hv with hv | hv
              · rcases hn' v hv with hv | hv | hv <;> simp [hv]
              · exact Or.inr (Or.inr (Or.inr hv))
            · rw [hlet]; omega
            · rw [d1, c1]
            · rw [d2, c2]
            · rw [d3, c3]

theorem corpusTexts_cons (d : Document) (c : Corpus) : corpusTexts (d :: c) = docTexts d.id d.texts ++ corpusTexts c := rfl

theorem CorpusOk.texts {c : Corpus} (h : CorpusOk c) {d : Document} (hd : d ∈ c) :
    (∀ t ∈ d.texts, d.getText t.1 = .ok t.2) ∧ ∀ t ∈ d.texts, Usable t.1 ∧ ∀ w ∈ t.2, Usable w := by
  obtain ⟨hs, hdoc, hu⟩ := h d hd
  have hsort : SMap.Sorted Word.lt d.texts := by rw [hdoc]; exact documentOf_sorted _ _
  have hfind : ∀ t ∈ d.texts, SMap.find Word.lt d.texts t.1 = some t.2 :=
    fun t ht => (SMap.find_some_iff strict_wordLt hsort _ _).2 ht
  refine ⟨fun t ht => by rw [Document.getText, hfind t ht], ?_⟩
  intro t ht
  have h1 := hfind t ht
  rw [hdoc, documentOf_find, lastText] at h1
  obtain ⟨p, hp, h2⟩ := Option.map_eq_some_iff.1 h1
  have h3 := List.mem_of_find?_eq_some hp
  have h4 := List.find?_some hp
  simp only [beq_iff_eq] at h4
  rw [← h4, ← h2]
  exact hu p (List.mem_reverse.1 h3)

theorem MInv.index [Build] [Icu] (c : Corpus) :
    ∀ (m : Matcher) (H : MatcherHistory) (names : List Word), MInv m H names → CorpusOk c →
    (∃ m', m.index c = (m', some .runtimeError) ∧ MLost m.e m.os H (H ++ corpusTexts c) m' ∧
      StorageRefused m.os (lettersIn names + lettersIn H.words + 2 * lettersIn (corpusTexts c).mentions)) ∨
    ∃ m' names', m.index c = (m', emptyFault (!decide (NoEmpty (corpusTexts c)))) ∧
      MInv m' (H ++ beforeEmpty (corpusTexts c)) names' ∧ names <+: names' ∧
      (∀ v ∈ names', v ∈ names ∨ v ∈ (beforeEmpty (corpusTexts c)).mentions) ∧
      lettersIn names' ≤ lettersIn names + lettersIn (corpusTexts c).mentions ∧
      m'.os = m.os ∧ m'.e = m.e ∧ m'.weights = m.weights := by
  induction c with
  | nil =>
    intro m H names h _
    right
    refine ⟨m, names, ?_, by simpa [corpusTexts, beforeEmpty] using h, List.prefix_refl _, fun v hv => Or.inl hv, by omega, rfl, rfl, rfl⟩
    have : NoEmpty (corpusTexts []) := by intro x hx; cases hx
    simp only [Matcher.index, this, decide_true]; rfl
  | cons d c ih =>
    intro m H names h hc
    obtain ⟨ht, hu⟩ := CorpusOk.texts hc (d := d) (by simp)
    have hment : (corpusTexts (d :: c)).mentions = (docTexts d.id d.texts).mentions ++ (corpusTexts c).mentions := by
      rw [corpusTexts_cons, MatcherHistory.mentions_append]
    have hlet := congrArg lettersIn hment
    rw [lettersIn_append] at hlet
    rw [Matcher.index, Document.getFieldNames]
    rcases h.indexFields d.texts m H names ht hu with ⟨m', e, hm, hr⟩ | ⟨m', names', e, h1, hp, hn, hl, c1, c2, c3⟩
    · left
      refine ⟨m', by simp only [e], hm.mono (fun _ hw => hw) (fun v hv => ?_), hr.mono (by omega)⟩
      rw [corpusTexts_cons, ← List.append_assoc]; exact words_sub _ _ v hv
    · by_cases hne : NoEmpty (docTexts d.id d.texts)
      · rw [beforeEmpty_self hne] at h1
        have hw : lettersIn (MatcherHistory.words (H ++ docTexts d.id d.texts)) ≤
            lettersIn H.words + lettersIn (docTexts d.id d.texts).mentions := by
          rw [MatcherHistory.words, List.flatMap_append, lettersIn_append]
          have : ∀ K : MatcherHistory, lettersIn (K.flatMap Indexed.words) ≤ lettersIn K.mentions := by
            intro K
            induction K with
            | nil => simp [lettersIn]
            | cons x K ih =>
              rw [List.flatMap_cons, lettersIn_append, MatcherHistory.mentions, List.flatMap_cons, lettersIn_append,
                lettersIn_cons]
              unfold MatcherHistory.mentions at ih
              omega
          have := this (docTexts d.id d.texts)
          unfold MatcherHistory.words
          omega
        rcases ih m' _ names' h1 (fun x hx => hc x (by simp [hx])) with ⟨m2, e2, hm, hr⟩ | ⟨m2, names2, e2, h2, hp2, hn2, hl2, d1, d2, d3⟩
        · left
          rw [c1, c2] at hm
          refine ⟨m2, by simp only [e, hne, decide_true, Bool.not_true, emptyFault_false, e2],
            hm.mono (words_sub H _) (fun v hv => by rw [corpusTexts_cons, ← List.append_assoc]; exact hv), ?_⟩
          rw [c1] at hr
          exact hr.mono (by omega)
        · right
          refine ⟨m2, names2, ?_, ?_, hp.trans hp2, ?_, by omega, by rw [d1, c1], by rw [d2, c2], by rw [d3, c3]⟩
          · have : NoEmpty (corpusTexts (d :: c)) ↔ NoEmpty (corpusTexts c) := by
              rw [corpusTexts_cons]; unfold NoEmpty at hne ⊢
              simp only [List.mem_append]
              exact ⟨fun h x hx => h x (Or.inr hx), fun h x hx => hx.elim (hne x) (h x)⟩
            simp only [e, hne, decide_true, Bool.not_true, emptyFault_false, e2, this]
          · rw [corpusTexts_cons, (beforeEmpty_append _ _).1 hne, ← List.append_assoc]; exact h2
          · intro v hv
            rw [corpusTexts_cons, (beforeEmpty_append _ _).1 hne, MatcherHistory.mentions_append, List.mem_append]
            rw [beforeEmpty_self hne] at hn
            rcases hn2 v hv with hv | hv
            · rcases hn v hv with hv | hv <;> simp [hv]
            · simp [hv]
      · right
        have hno : ¬ NoEmpty (corpusTexts (d :: c)) := by
          rw [corpusTexts_cons]
          intro hx
          exact hne fun x h => hx x (by simp [h])
        refine ⟨m', names', ?_, ?_, hp, ?_, by omega, c1, c2, c3⟩
        · simp only [e, hne, hno]; rfl
        · rw [corpusTexts_cons, (beforeEmpty_append _ _).2 hne]; exact h1
        · rw [corpusTexts_cons, (beforeEmpty_append _ _).2 hne]; exact hn

theorem MInv.new [Build] [Icu] (os : Nat → Bool) :
    (os 1024 = false ∧ Matcher.new os = .error .runtimeError) ∨ ∃ m, Matcher.new os = .ok m ∧ MInv m [] [] ∧ m.os = os := by
  rcases SInv.new os with ⟨h1, h2⟩ | ⟨s, e, h, hos, _⟩
  · left; exact ⟨h1, by rw [Matcher.new, h2]; rfl⟩
  · right
    refine ⟨⟨[], [], ErrorValues.new, [], [], s, [], os⟩, by rw [Matcher.new, e]; rfl, ?_, rfl⟩
    refine ⟨⟨⟨_, h, by show 1 ≤ _; omega⟩, by simp, hos⟩, by simp [MatcherHistory.mentions], ?_, ?_, by simp, ?_, ?_, ?_, ⟨[], rfl⟩,
      fun i => by simp [MatcherStatistics.getTotalWordCount, HMap.find]⟩
    · intro i ix hi; cases hi
    · intro i f hi; simp at hi
    · intro i j d
      constructor
      · intro h; simp [docsOf, HMap.find] at h
      · rintro ⟨f, w, h, _⟩; simp at h
    · intro i j; simp [docsOf, HMap.find]
    · intro d i; simp [SMap.find]

end Columbus
