import Verif.Proofs.MatcherMatch
import Verif.Proofs.MatcherIndex
/-
The shape of all results, online matching, and what holds in every execution.
-/

namespace Columbus
open Spec ErrorValues

/-! ### The shape of results -/

section
variable [Build] [Runtime]

theorem keepLoop_trivial (ri : ReverseIndex) (xs : List Result) : ∀ s : WordStore,
    keepLoop ri [[]] s xs = (s, .ok xs) := by
  induction xs with
  | nil => intro s; rfl
  | cons x xs ih =>
    intro s
    rw [keepLoop, orLoop, subLoop]
    simp only [ih]

variable [Fp] {m : Matcher} {q : WordList} {p : SearchParameters}

omit [Runtime] in
theorem gatherDocs_sorted {i j : WordID} {v : Int} (ds : List DocumentID) : ∀ {docs docs' : SMap DocumentID ℚ},
    SMap.Sorted ltNat docs → Matcher.gatherDocs m j i v docs ds = .ok docs' → SMap.Sorted ltNat docs' := by
  induction ds with
  | nil => intro docs docs' h e; injection e with e; rwa [← e]
  | cons d ds ih =>
    intro docs docs' h e
    rw [Matcher.gatherDocs] at e
    cases hc : m.calculateRelevancy j i v with
    | error f => rw [hc] at e; cases e
    | ok r =>
      rw [hc] at e
      simp only [ok_bind] at e
      split at e
      · exact ih (SMap.sorted_set strict_ltNat trans_ltNat h _ _) e
      · exact ih (SMap.sorted_set strict_ltNat trans_ltNat h _ _) e

theorem gatherList_sorted (P : List (WordID × WordID × Int)) : ∀ {docs docs' : SMap DocumentID ℚ},
    SMap.Sorted ltNat docs → gatherList m docs P = .ok docs' → SMap.Sorted ltNat docs' := by
  induction P with
  | nil => intro docs docs' h e; injection e with e; rwa [← e]
  | cons x P ih =>
    intro docs docs' h e
    rw [gatherList] at e
    cases hc : Matcher.gatherDocs m x.2.1 x.1 x.2.2 docs (ReverseIndex.findDocuments m.reverseIndex x.2.1 x.1) with
    | error f => rw [hc] at e; cases e
    | ok docs1 =>
      rw [hc] at e
      simp only [ok_bind] at e
      exact ih (gatherDocs_sorted _ h hc) e

/-- Whatever the matcher: the loop of `match` lists documents of a map. -/
theorem matchLoop_shape {all : MatchResults} (h : Matcher.matchLoop m q p MatchResults.new 0 Matcher.maxIterations = .ok all) :
    ∃ docs : SMap DocumentID ℚ, SMap.Sorted ltNat docs ∧ all = ⟨docs.map fun x => (x.2, x.1), false⟩ := by
  cases hr : Matcher.relevancyMatch m q p 0 MatchResults.new with
  | error f =>
    exfalso
    rw [Matcher.maxIterations, Matcher.matchLoop] at h
    rw [show ((0 : Nat) : Int) * Matcher.increment = 0 by simp, hr] at h
    cases h
  | ok r =>
    rw [matchLoop_eq hr] at h
    injection h with h
    rw [Matcher.relevancyMatch] at hr
    cases hb : Matcher.matchIndexes m p 0 [] q with
    | error f => rw [hb] at hr; cases hr
    | ok best =>
      rw [hb] at hr
      simp only [ok_bind] at hr
      rw [gatherMatched_eq] at hr
      cases hg : gatherList m [] (flat best) with
      | error f => rw [hg] at hr; cases hr
      | ok docs =>
        rw [hg] at hr
        simp only [ok_bind] at hr
        injection hr with hr
        refine ⟨docs, gatherList_sorted (docs := []) _ List.Pairwise.nil hg, ?_⟩
        rw [← h, ← hr, addAll_eq]; rfl

/-- The shape of `match`: an exception of the search, or the filtered listing of some documents. -/
theorem matchQuery_shape (hq : q ≠ []) :
    (∃ f, m.matchQuery q p = (m, .error f)) ∨
    ∃ docs : SMap DocumentID ℚ, SMap.Sorted ltNat docs ∧
      m.matchQuery q p = match keepLoop m.reverseIndex p.filter.termList m.store (listing docs) with
        | (s, .error f) => ({ m with store := s }, .error f)
        | (s, .ok k) => ({ m with store := s }, .ok (copied .new k)) := by
  have hlen : q.length ≠ 0 := fun h0 => hq (List.length_eq_zero_iff.1 h0)
  rw [Matcher.matchQuery, if_neg hlen]
  cases hl : Matcher.matchLoop m q p MatchResults.new 0 Matcher.maxIterations with
  | error f => left; exact ⟨f, rfl⟩
  | ok all =>
    right
    obtain ⟨docs, hs, rfl⟩ := matchLoop_shape hl
    refine ⟨docs, hs, ?_⟩
    have hri : RInv ⟨docs.map fun x => (x.2, x.1), false⟩ (docs.map fun x => (x.2, x.1)) :=
      ⟨fun _ => rfl, fun h => by cases h⟩
    have hix : (List.range (List.map (fun x : DocumentID × ℚ => (x.2, x.1)) docs).length).map
        (fun i => (rank (docs.map fun x => (x.2, x.1)))[i]?) = (listing docs).map some := by
      rw [← rank_length (docs.map fun x => (x.2, x.1))]
      exact range_map_some _
    simp only [MatchResults.size]
    rw [filterLoop_eq (listing docs) _ _ _ _ hri hix]
    rcases keepLoop m.reverseIndex p.filter.termList m.store (listing docs) with ⟨s, _ | k⟩ <;> rfl

end

theorem listing_sorted (docs : SMap DocumentID ℚ) : (listing docs).Pairwise (fun a b => b.1 ≤ a.1) := (rank_isRanking _).1

theorem mem_listing {docs : SMap DocumentID ℚ} {x : Result} : x ∈ listing docs ↔ (x.2, x.1) ∈ docs := by
  rw [listing, (rank_isRanking _).perm.mem_iff, List.mem_map]
  constructor
  · rintro ⟨⟨a, b⟩, h, rfl⟩; exact h
  · intro h; exact ⟨(x.2, x.1), h, rfl⟩

theorem listing_nodup {docs : SMap DocumentID ℚ} (h : SMap.Sorted ltNat docs) : ((listing docs).map (·.2)).Nodup := by
  have h1 : ((listing docs).map (·.2)).Perm ((docs.map fun x => (x.2, x.1)).map (·.2)) := (rank_isRanking _).perm.map _
  rw [h1.nodup_iff, List.map_map]
  exact SMap.sorted_nodup strict_ltNat h

theorem pairwise_of_ties {l : List Result} (h : l.Pairwise (fun a b => b.1 ≤ a.1))
    (ht : ∀ v, (l.filter (fun x => x.1 == v)).Pairwise (fun a b => a.2 < b.2)) : l.Pairwise RankOrder := by
  induction l with
  | nil => exact List.Pairwise.nil
  | cons x l ih =>
    rw [List.pairwise_cons] at h ⊢
    constructor
    · intro y hy
      rcases lt_or_eq_of_le (h.1 y hy) with hlt | he
      · exact Or.inl hlt
      · right
        refine ⟨he.symm, ?_⟩
        have := ht x.1
        rw [List.filter_cons, if_pos (by simp), List.pairwise_cons] at this
        exact this.1 y (List.mem_filter.2 ⟨hy, by simp [he]⟩)
    · apply ih h.2
      intro v
      have := ht v
      rw [List.filter_cons] at this
      split at this
      · exact this.of_cons
      · exact this

theorem listing_rank {docs : SMap DocumentID ℚ} (h : SMap.Sorted ltNat docs) : (listing docs).Pairwise RankOrder := by
  apply pairwise_of_ties (listing_sorted docs)
  intro v
  rw [listing, (rank_isRanking _).2 v]
  apply List.Pairwise.filter
  rw [List.pairwise_map]
  unfold SMap.Sorted at h
  rw [List.pairwise_map] at h
  exact h.imp (by intro a b hab; simpa [ltNat] using hab)

theorem copied_inv {k : List Result} (h : k.Pairwise RankOrder) : RInv (copied .new k) k ∧ rank k = k := by
  have h' : k.Pairwise (fun a b => b.1 ≤ a.1) := h.imp (by
    rintro a b (h | h)
    · exact le_of_lt h
    · exact le_of_eq h.1.symm)
  exact ⟨⟨fun _ => by simp [copied, MatchResults.new], fun _ => by simpa [copied, MatchResults.new] using h'⟩, rank_of_sorted h'⟩

/-! ### Default parameters -/

section
variable [Build] [Runtime] [Fp] {m : Matcher} {q : WordList}

theorem matchDefault_shape :
    (∃ f, m.matchDefault q = (m, .error f)) ∨
    ∃ docs : SMap DocumentID ℚ, SMap.Sorted ltNat docs ∧ m.matchDefault q = (m, .ok (copied .new (listing docs))) := by
  by_cases hq : q = []
  · right
    refine ⟨[], List.Pairwise.nil, ?_⟩
    subst hq
    have hl : listing [] = [] := by
      have := rank_length []
      exact List.length_eq_zero_iff.1 this
    rw [hl]; rfl
  · rcases matchQuery_shape (m := m) (p := SearchParameters.new) hq with ⟨f, e⟩ | ⟨docs, hs, e⟩
    · left; exact ⟨f, e⟩
    · right
      refine ⟨docs, hs, ?_⟩
      rw [Matcher.matchDefault, e]
      rw [show SearchParameters.new.filter.termList = [[]] from rfl, keepLoop_trivial]

end

/-! ### Searching keeps the invariant -/

section
variable [Build] [Icu] [Runtime] [Fp] {m : Matcher} {H : MatcherHistory} {names : List Word}

theorem MInv.matchQuery_any (h : MInv m H names) (q : WordList) {p : SearchParameters}
    (hu : ∀ w ∈ filterWords p.filter, Usable w) :
    ∃ m' r, m.matchQuery q p = (m', r) ∧
      ((r = .error .runtimeError ∧ StorageRefused m.os (lettersIn names + 2 * lettersIn (filterWords p.filter))) ∨
        ∃ s' names', m' = { m with store := s' } ∧ Grown m H names (filterWords p.filter) s' names') := by
  have h0 : Grown m H names (filterWords p.filter) m.store names := ⟨h, List.prefix_refl _, fun v hv => Or.inl hv⟩
  by_cases hq : q = []
  · subst hq
    exact ⟨m, _, rfl, Or.inr ⟨m.store, names, rfl, h0⟩⟩
  · rcases matchQuery_shape (m := m) (p := p) hq with ⟨f, e⟩ | ⟨docs, hs, e⟩
    · exact ⟨m, _, e, Or.inr ⟨m.store, names, rfl, h0⟩⟩
    · rw [e]
      rcases keepLoop_spec hu (listing docs) h0 with ⟨e1, hr⟩ | ⟨n1, h1, _⟩
      · rcases hg : keepLoop m.reverseIndex p.filter.termList m.store (listing docs) with ⟨s1, r⟩
        rw [hg] at e1; dsimp only at e1; subst e1
        exact ⟨_, _, rfl, Or.inl ⟨rfl, hr⟩⟩
      · rcases hg : keepLoop m.reverseIndex p.filter.termList m.store (listing docs) with ⟨s1, _ | r⟩
        · rw [hg] at h1
          exact ⟨_, _, rfl, Or.inr ⟨s1, n1, rfl, h1⟩⟩
        · rw [hg] at h1
          exact ⟨_, _, rfl, Or.inr ⟨s1, n1, rfl, h1⟩⟩

end

/-! ### Online matching -/

/-- The count of a document. -/
def countOf (c : SMap DocumentID Nat) (d : DocumentID) : Nat := (SMap.find ltNat c d).getD 0

/-- Counts in order, all positive. -/
structure CInv (c : SMap DocumentID Nat) : Prop where
  sorted : SMap.Sorted ltNat c
  pos : ∀ d n, SMap.find ltNat c d = some n → 0 < n

theorem CInv.find {c : SMap DocumentID Nat} (h : CInv c) (d : DocumentID) :
    SMap.find ltNat c d = if countOf c d = 0 then none else some (countOf c d) := by
  unfold countOf
  cases hf : SMap.find ltNat c d with
  | none => simp
  | some n => have := h.pos d n hf; rw [if_neg]; rfl; simp; omega

theorem countDocs_spec (ds : List DocumentID) : ∀ c : SMap DocumentID Nat, CInv c → ds.Nodup →
    CInv (Matcher.countDocs c ds) ∧ ∀ d, countOf (Matcher.countDocs c ds) d = countOf c d + if d ∈ ds then 1 else 0 := by
  induction ds with
  | nil => intro c h _; exact ⟨h, by simp [Matcher.countDocs]⟩
  | cons x ds ih =>
    intro c h hnd
    rw [List.nodup_cons] at hnd
    have hval : (match SMap.find ltNat c x with | none => 0 | some n => n) = countOf c x := by
      unfold countOf; cases SMap.find ltNat c x <;> rfl
    have h1 : CInv (SMap.set ltNat c x (countOf c x + 1)) := by
      refine ⟨SMap.sorted_set strict_ltNat trans_ltNat h.sorted _ _, fun d n hd => ?_⟩
      rw [SMap.find_set strict_ltNat] at hd
      split at hd
      · injection hd with hd; omega
      · exact h.pos d n hd
    obtain ⟨h2, h3⟩ := ih _ h1 hnd.2
    have hstep : Matcher.countDocs c (x :: ds) = Matcher.countDocs (SMap.set ltNat c x (countOf c x + 1)) ds := by
      rw [Matcher.countDocs, ← hval]
      cases SMap.find ltNat c x <;> rfl
    rw [hstep]
    refine ⟨h2, fun d => ?_⟩
    rw [h3]
    have h4 : countOf (SMap.set ltNat c x (countOf c x + 1)) d = countOf c d + if x = d then 1 else 0 := by
      unfold countOf
      rw [SMap.find_set strict_ltNat]
      by_cases e : x = d
      · subst e; simp
      · simp [e]
    rw [h4]
    by_cases e : x = d
    · subst e; simp [hnd.1]
    · simp [e, Ne.symm e]

section
variable [Build] [Icu] [Runtime] {m : Matcher} {H : MatcherHistory} {names : List Word}

theorem MInv.countExacts (h : MInv m H names) {f : Word} {i : WordID} (hf : names[i]? = some f) (ws : WordList) :
    ∀ c : SMap DocumentID Nat, CInv c → (∀ w ∈ ws, ∀ l ∈ w, l ≠ 0#16) →
    ∃ c', Matcher.countExacts m.reverseIndex i m.store c ws = .ok (m.store, c') ∧ CInv c' ∧
      ∀ d, countOf c' d = countOf c d + exacts H ws f d := by
  induction ws with
  | nil => intro c hc _; exact ⟨c, rfl, hc, by simp [exacts]⟩
  | cons w ws ih =>
    intro c hc hu
    have hu' : ∀ w ∈ ws, ∀ l ∈ w, l ≠ 0#16 := fun v hv => hu v (by simp [hv])
    have hno : ∀ d, w ∉ names → ¬ H.Posting d f w := fun d hn hp => hn (h.known w hp.word)
    have skip : w ∉ names → ∀ d, exacts H (w :: ws) f d = exacts H ws f d := by
      intro hn d
      unfold exacts
      rw [List.countP_cons_of_neg]
      simpa using hno d hn
    rw [Matcher.countExacts]
    by_cases h0 : w.length = 0
    · rw [if_pos h0]
      have hn : w ∉ names := by
        intro hm
        exact (h.store.good w hm).nonempty (List.length_eq_zero_iff.1 h0)
      obtain ⟨c', e, hc', hs⟩ := ih c hc hu'
      exact ⟨c', e, hc', fun d => by rw [hs, skip hn]⟩
    · rw [if_neg h0, h.store.hasWord (hu w (by simp))]
      simp only [ok_bind]
      by_cases hn : w ∈ names
      · simp only [hn, decide_true, Bool.true_eq_false, if_false]
        rw [h.store.getID_old hn]
        simp only [ok_bind]
        have hp := findDocuments_perm m.reverseIndex i (names.idxOf w)
        obtain ⟨h1, h2⟩ := countDocs_spec (ReverseIndex.findDocuments m.reverseIndex (names.idxOf w) i) c hc
          (hp.nodup_iff.2 (h.docs _ _))
        obtain ⟨c', e, hc', hs⟩ := ih _ h1 hu'
        refine ⟨c', e, hc', fun d => ?_⟩
        rw [hs, h2]
        have hmem : d ∈ ReverseIndex.findDocuments m.reverseIndex (names.idxOf w) i ↔ H.Posting d f w := by
          rw [hp.mem_iff, h.post]
          constructor
          · rintro ⟨f', w', a, b, c⟩
            rw [hf] at a; rw [getElem?_idxOf hn] at b
            injection a with a; injection b with b
            subst a; subst b; exact c
          · intro c; exact ⟨f, w, hf, getElem?_idxOf hn, c⟩
        unfold exacts
        by_cases hc : H.Posting d f w
        · rw [if_pos (hmem.2 hc), List.countP_cons_of_pos (by simpa using hc)]; omega
        · rw [if_neg (fun hx => hc (hmem.1 hx)), List.countP_cons_of_neg (by simpa using hc)]; omega
      · simp only [hn, decide_false, if_true]
        obtain ⟨c', e, hc', hs⟩ := ih c hc hu'
        exact ⟨c', e, hc', fun d => by rw [hs, skip hn]⟩

end

/-- The score of `n` exact words. -/
def exactScore [Fp] (querySize : Nat) (size : Option Nat) (n : Nat) : ℚ :=
  if n = querySize ∧ size = some n then fadd (ofInt (2 * (n : Int))) 100 else ofInt (2 * (n : Int))

theorem exactLoop_spec [Fp] {querySize : Nat} {i : WordID} {sizes : SMap (DocumentID × WordID) Nat} (l : SMap DocumentID Nat) :
    ∀ acc : SMap DocumentID ℚ, SMap.Sorted ltNat acc → (l.map (·.1)).Nodup →
    (∀ x ∈ l, SMap.find Matcher.ltDW sizes (x.1, i) ≠ none) →
    ∃ acc', Matcher.exactLoop querySize i sizes acc l = (sizes, acc') ∧ SMap.Sorted ltNat acc' ∧
      ∀ d, (∀ n, (d, n) ∈ l → SMap.find ltNat acc' d = some (exactScore querySize (SMap.find Matcher.ltDW sizes (d, i)) n)) ∧
        (d ∉ l.map (·.1) → SMap.find ltNat acc' d = SMap.find ltNat acc d) := by
  induction l with
  | nil => intro acc h _ _; exact ⟨acc, rfl, h, by simp⟩
  | cons x l ih =>
    intro acc h hnd hsz
    obtain ⟨id, n⟩ := x
    rw [List.map_cons, List.nodup_cons] at hnd
    obtain ⟨sz, hs⟩ := Option.ne_none_iff_exists'.1 (hsz (id, n) (by simp))
    dsimp only at hs
    have step : Matcher.exactLoop querySize i sizes acc ((id, n) :: l) =
        Matcher.exactLoop querySize i sizes (SMap.set ltNat acc id (exactScore querySize (some sz) n)) l := by
      rw [Matcher.exactLoop]
      simp only [hs, exactScore]
      by_cases h1 : n = querySize
      · by_cases h2 : n = sz
        · subst h1; subst h2; simp
        · have : ¬ (some sz = some n) := by simpa using Ne.symm h2
          simp only [h1, if_true, true_and]
          rw [← h1, if_neg h2, if_neg this]
      · simp [h1]
    obtain ⟨acc', e, hsort, hf⟩ := ih (SMap.set ltNat acc id (exactScore querySize (some sz) n))
      (SMap.sorted_set strict_ltNat trans_ltNat h _ _) hnd.2 (fun x hx => hsz x (by simp [hx]))
    refine ⟨acc', by rw [step, e], hsort, fun d => ⟨fun k hk => ?_, fun hd => ?_⟩⟩
    · rcases List.mem_cons.1 hk with hk | hk
      · injection hk with h1 h2
        subst h1; subst h2
        rw [(hf d).2 hnd.1, SMap.find_set strict_ltNat, if_pos rfl, hs]
      · exact (hf d).1 k hk
    · rw [List.map_cons, List.mem_cons, not_or] at hd
      rw [(hf d).2 hd.2, SMap.find_set strict_ltNat, if_neg (Ne.symm hd.1)]

/-- Merging the results themselves. -/
def mergeList [Fp] (acc : SMap DocumentID ℚ) : List Result → SMap DocumentID ℚ
  | [] => acc
  | x :: xs => mergeList (SMap.set ltNat acc x.2 (fadd ((SMap.find ltNat acc x.2).getD 0) x.1)) xs

theorem mergeLoop_eq [Fp] {l : List Result} (xs : List Result) : ∀ (fuzzy : MatchResults) (acc : SMap DocumentID ℚ) (is : List Nat),
    RInv fuzzy l → is.map (fun i => (rank l)[i]?) = xs.map some →
    Matcher.mergeLoop fuzzy acc is = .ok (mergeList acc xs) := by
  induction xs with
  | nil =>
    intro fuzzy acc is _ h
    rw [List.map_nil, List.map_eq_nil_iff] at h; subst h; rfl
  | cons x xs ih =>
    intro fuzzy acc is hr h
    cases is with
    | nil => simp at h
    | cons i is =>
      simp only [List.map_cons, List.cons.injEq] at h
      have e1 : fuzzy.getDocumentID i = .ok (⟨rank l, true⟩, x.2) := by rw [hr.getDocumentID, h.1]
      have e2 : (⟨rank l, true⟩ : MatchResults).getRelevancy i = .ok (⟨rank l, true⟩, x.1) := by
        rw [(rank_inv l).getRelevancy, h.1]
      rw [Matcher.mergeLoop, e1]
      simp only [ok_bind, e2]
      rw [mergeList]
      cases SMap.find ltNat acc x.2 <;> exact ih _ _ is (rank_inv l) h.2

theorem mergeList_spec [Fp] (xs : List Result) : ∀ acc : SMap DocumentID ℚ, SMap.Sorted ltNat acc → (xs.map (·.2)).Nodup →
    SMap.Sorted ltNat (mergeList acc xs) ∧
    ∀ d, (∀ r, (r, d) ∈ xs → SMap.find ltNat (mergeList acc xs) d = some (fadd ((SMap.find ltNat acc d).getD 0) r)) ∧
      (d ∉ xs.map (·.2) → SMap.find ltNat (mergeList acc xs) d = SMap.find ltNat acc d) := by
  induction xs with
  | nil => intro acc h _; exact ⟨h, by simp [mergeList]⟩
  | cons x xs ih =>
    intro acc h hnd
    obtain ⟨r0, d0⟩ := x
    rw [List.map_cons, List.nodup_cons] at hnd
    obtain ⟨h1, h2⟩ := ih (SMap.set ltNat acc d0 (fadd ((SMap.find ltNat acc d0).getD 0) r0))
      (SMap.sorted_set strict_ltNat trans_ltNat h _ _) hnd.2
    rw [mergeList]
    refine ⟨h1, fun d => ⟨fun r hr => ?_, fun hd => ?_⟩⟩
    · rcases List.mem_cons.1 hr with hr | hr
      · injection hr with a b
        subst a; subst b
        rw [(h2 d).2 hnd.1, SMap.find_set strict_ltNat, if_pos rfl]
      · rw [(h2 d).1 r hr, SMap.find_set strict_ltNat, if_neg]
        rintro rfl
        exact hnd.1 (List.mem_map.2 ⟨_, hr, rfl⟩)
    · rw [List.map_cons, List.mem_cons, not_or] at hd
      rw [(h2 d).2 hd.2, SMap.find_set strict_ltNat, if_neg (Ne.symm hd.1)]

theorem usable_noNul {w : Word} (h : Usable w) : ∀ l ∈ w, l ≠ 0#16 := by
  rcases h with rfl | h
  · simp
  · exact h.noNul

theorem usable_asUtf8 {w : Word} (h : Usable w) : ∃ u, Word.asUtf8 w = .ok u := by
  rcases h with rfl | h
  · exact ⟨_, asUtf8_ok (cps := []) (by simpa using Utf16.nil)⟩
  · obtain ⟨c, hc⟩ := h.wellFormed
    exact ⟨_, asUtf8_ok hc⟩

section
variable [Build] [Icu] [Runtime] [Fp] {m : Matcher} {H : MatcherHistory} {names : List Word}

theorem MInv.online_unknown (h : MInv m H names) {f : Word} (hu : Usable f) (hf : f ∉ names) (q : WordList) :
    m.onlineMatch q f = (m, .error .invalidArgument) := by
  obtain ⟨u, e⟩ := usable_asUtf8 hu
  rw [Matcher.onlineMatch, h.store.hasWord (usable_noNul hu)]
  simp only [hf, decide_false, e]

/-- The scores of `onlineMatch` given the results `k` of `match`. -/
structure IsScores (H : MatcherHistory) (q : WordList) (f : Word) (k : List Result) (acc : SMap DocumentID ℚ) : Prop where
  sorted : SMap.Sorted ltNat acc
  matched : ∀ d r, (r, d) ∈ k → SMap.find ltNat acc d = some (fadd (exactPart H q f d) r)
  other : ∀ d, d ∉ k.map (·.2) → SMap.find ltNat acc d = if exacts H q f d = 0 then none else some (exactPart H q f d)

theorem MInv.online_known (h : MInv m H names) {f : Word} (hf : f ∈ names) {q : WordList} (hq : ∀ w ∈ q, ∀ l ∈ w, l ≠ 0#16) :
    (∃ x, m.matchDefault q = (m, .error x) ∧ m.onlineMatch q f = (m, .error x)) ∨
    ∃ docs acc, SMap.Sorted ltNat docs ∧ m.matchDefault q = (m, .ok (copied .new (listing docs))) ∧
      m.onlineMatch q f = (m, .ok (Matcher.addAll .new acc)) ∧ IsScores H q f (listing docs) acc := by
  obtain ⟨c, e1, hc, hcount⟩ := h.countExacts (getElem?_idxOf hf) q [] ⟨List.Pairwise.nil, by intro d n h; cases h⟩ hq
  have hcount' : ∀ d, countOf c d = exacts H q f d := by
    intro d; rw [hcount]; simp [countOf, SMap.find]
  have hfind : ∀ d, SMap.find ltNat c d = if exacts H q f d = 0 then none else some (exacts H q f d) := by
    intro d; rw [hc.find, hcount']
  have hsize : ∀ d, SMap.find Matcher.ltDW m.originalSizes (d, names.idxOf f) = H.size d f := by
    intro d; rw [h.sizes, getElem?_idxOf hf]; rfl
  have hposs : ∀ x ∈ c, SMap.find Matcher.ltDW m.originalSizes (x.1, names.idxOf f) ≠ none := by
    rintro ⟨d, n⟩ hx
    have h1 := (SMap.find_some_iff strict_ltNat hc.sorted d n).2 hx
    rw [hfind] at h1
    have h2 : exacts H q f d ≠ 0 := by intro h0; rw [if_pos h0] at h1; cases h1
    dsimp only
    rw [hsize]
    have h3 : 0 < exacts H q f d := Nat.pos_of_ne_zero h2
    rw [exacts, List.countP_pos_iff] at h3
    obtain ⟨w, _, hp⟩ := h3
    obtain ⟨x, hx1, hx2, hx3, _⟩ := of_decide_eq_true hp
    exact MatcherHistory.size_of_mem ⟨x, hx1, hx2, hx3⟩
  obtain ⟨acc, e2, hacc, hscore⟩ := exactLoop_spec (querySize := q.length) c [] List.Pairwise.nil
    (SMap.sorted_nodup strict_ltNat hc.sorted) hposs
  have hpart : ∀ d, SMap.find ltNat acc d = if exacts H q f d = 0 then none else some (exactPart H q f d) := by
    intro d
    by_cases h0 : exacts H q f d = 0
    · rw [if_pos h0, (hscore d).2 ((SMap.find_none_iff strict_ltNat c d).1 (by rw [hfind, if_pos h0]))]; rfl
    · rw [if_neg h0, (hscore d).1 _ ((SMap.find_some_iff strict_ltNat hc.sorted _ _).1 (by rw [hfind, if_neg h0])), hsize]
      rw [exactPart, if_neg h0]; rfl
  have hget : ∀ d, (SMap.find ltNat acc d).getD 0 = exactPart H q f d := by
    intro d; rw [hpart]
    by_cases h0 : exacts H q f d = 0
    · simp [h0, exactPart]
    · simp [h0]
  have hon : m.onlineMatch q f = match m.matchDefault q with
      | (m, .error f) => (m, .error f)
      | (m, .ok fuzzy) =>
        match Matcher.mergeLoop fuzzy acc (List.range fuzzy.size) with
        | .error f => (m, .error f)
        | .ok acc => (m, .ok (Matcher.addAll MatchResults.new acc)) := by
    rw [Matcher.onlineMatch, h.store.hasWord (h.store.good f hf).noNul]
    simp only [hf, decide_true, h.store.getID_old hf, e1, e2]
    rfl
  rcases matchDefault_shape (m := m) (q := q) with ⟨x, e⟩ | ⟨docs, hs, e⟩
  · left; exact ⟨x, e, by rw [hon, e]⟩
  · right
    obtain ⟨hri, hrk⟩ := copied_inv (listing_rank hs)
    have hix : (List.range (copied .new (listing docs)).size).map (fun i => (rank (listing docs))[i]?) =
        (listing docs).map some := by
      rw [hrk]
      have : (copied .new (listing docs)).size = (listing docs).length := by simp [copied, MatchResults.size, MatchResults.new]
      rw [this]
      exact range_map_some _
    obtain ⟨m1, m2⟩ := mergeList_spec (listing docs) acc hacc (listing_nodup hs)
    refine ⟨docs, mergeList acc (listing docs), hs, e, ?_, m1, ?_, ?_⟩
    · rw [hon, e]
      simp only [mergeLoop_eq (listing docs) _ acc _ hri hix]
    · intro d r hr
      rw [(m2 d).1 r hr, hget]
    · intro d hd
      rw [(m2 d).2 hd, hpart]

end

/-! ### Every execution -/

section
variable [Build] [Icu] [Runtime] [Fp]

theorem Ran.inv {os : Nat → Bool} {m : Matcher} {H : MatcherHistory} {K : List Word} (h : Ran os m H K) :
    ∃ names, MInv m H names ∧ m.os = os ∧ ∀ v ∈ names, v ∈ H.mentions ∨ v ∈ K := by
  induction h with
  | new e =>
    rcases MInv.new os with ⟨_, e'⟩ | ⟨m', e', h', hos⟩
    · rw [e] at e'; cases e'
    · rw [e] at e'; injection e' with e'; subst e'
      exact ⟨[], h', hos, by simp⟩
  | @index m H K c m' o _ hc e hb ih =>
    obtain ⟨names, hi, hos, hk⟩ := ih
    rcases hi.index c m H names hc with ⟨m2, e2, _⟩ | ⟨m2, names', e2, h2, hp, hn, _, d1, _, _⟩
    · rw [e] at e2
      injection e2 with _ e2
      subst e2
      rcases hb _ rfl with hb | hb <;> cases hb
    · rw [e] at e2
      injection e2 with e2 _
      subst e2
      refine ⟨names', h2, by rw [d1, hos], fun v hv => ?_⟩
      rw [MatcherHistory.mentions_append, List.mem_append]
      rcases hn v hv with hv | hv
      · rcases hk v hv with hv | hv
        · exact Or.inl (Or.inl hv)
        · exact Or.inr hv
      · exact Or.inl (Or.inr hv)
  | @search m H K q p m' r _ hu e hb ih =>
    obtain ⟨names, hi, hos, hk⟩ := ih
    obtain ⟨m2, r2, e2, hr | ⟨s', names', rfl, hg⟩⟩ := hi.matchQuery_any q hu
    · rw [e] at e2; injection e2 with _ e2
      subst e2
      rcases hb _ hr.1 with hb | hb <;> cases hb
    · rw [e] at e2; injection e2 with e2 _
      subst e2
      refine ⟨names', hg.inv, hos, fun v hv => ?_⟩
      rw [List.mem_append]
      rcases hg.sub v hv with hv | hv
      · rcases hk v hv with hv | hv
        · exact Or.inl hv
        · exact Or.inr (Or.inl hv)
      · exact Or.inr (Or.inr hv)
  | @online m H K q f m' r _ hu hf e hb ih =>
    obtain ⟨names, hi, hos, hk⟩ := ih
    have : m' = m := by
      by_cases hm : f ∈ names
      · rcases hi.online_known hm (q := q) (fun w hw => usable_noNul (hu w hw)) with ⟨x, _, e2⟩ | ⟨_, _, _, _, e2, _⟩ <;>
          (rw [e] at e2; exact congrArg Prod.fst e2)
      · have e2 := hi.online_unknown hf hm q
        rw [e] at e2; exact congrArg Prod.fst e2
    subst this
    exact ⟨names, hi, hos, hk⟩
  | @errors m H K op _ ih =>
    obtain ⟨names, hi, hos, hk⟩ := ih
    refine ⟨names, ⟨hi.store, hi.known, hi.ixs, hi.has, hi.keys, hi.post, hi.docs, hi.sizes, ?_, hi.stats⟩, hos, hk⟩
    obtain ⟨ops, ho⟩ := hi.e
    refine ⟨ops ++ [op], ?_⟩
    dsimp only
    rw [ho]
    simp [afterOps]
  | @weight m H K f v _ ih =>
    obtain ⟨names, hi, hos, hk⟩ := ih
    exact ⟨names, ⟨hi.store, hi.known, hi.ixs, hi.has, hi.keys, hi.post, hi.docs, hi.sizes, hi.e, hi.stats⟩, hos, hk⟩

end
end Columbus
