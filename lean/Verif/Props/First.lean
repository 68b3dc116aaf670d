import Verif.Props.Better
/-
C105: exact texts are listed first by `onlineMatch`.
-/

namespace Columbus.Props
open Columbus Spec

section
variable [Build] [Icu] [Runtime] [Fp] {os : Nat → Bool} {m : Matcher} {H : MatcherHistory} {K : List Word}

/-! ### C105 -/

/-- The text of the field of the document, as last indexed, is that list of words. -/
def TextIs (H : MatcherHistory) (d : DocumentID) (f : Word) (q : WordList) : Prop :=
  ∃ H1 H2, H = H1 ++ [(⟨d, f, q.length, q⟩ : Indexed)] ++ H2 ∧ ∀ x ∈ H2, ¬ (x.doc = d ∧ x.field = f)

/-- The field of the document lacks a word of the query, or its text has another number of words. -/
def TextDiffers (H : MatcherHistory) (d : DocumentID) (f : Word) (q : WordList) : Prop :=
  (∃ w ∈ q, ¬ H.Posting d f w) ∨ H.size d f ≠ some q.length

/-- C105, what holds: without negative weights, `onlineMatch` lists a document whose text in the field is the query before each
document whose text there differs, if the latter has a relevancy of at most 99 in `match`. Missing: greater relevancies
(C105_false), and texts of the same number of words that have all those of the query and others (C56_false). -/
theorem C105_partial (h : Ran os m H K) (q : WordList) (hq : ∀ w ∈ q, Usable w) (hne : q ≠ []) (hl : q.length ≤ 2 ^ 50)
    (hs : Sane m.e q H) (hw : ∀ f, 0 ≤ IndexWeights.getWeight m.weights f) (f : Word) (d : DocumentID) (hd : TextIs H d f q)
    (m1 m2 : Matcher) (r r' : MatchResults) (k k' : List Result)
    (e : m.matchDefault q = (m1, .ok r)) (hk : Shows r k) (e' : m.onlineMatch q f = (m2, .ok r')) (hk' : Shows r' k') :
    d ∈ k'.map (·.2) ∧ ∀ d', TextDiffers H d' f q → (∀ rel, (rel, d') ∈ k → rel ≤ 99) →
      ∀ (i j : Nat) (s s' : ℚ), k'[i]? = some (s, d) → k'[j]? = some (s', d') → i < j ∧ s' < s := by
  obtain ⟨names, hi, _⟩ := Ran.start h
  obtain ⟨H1, H2, hH, h2⟩ := hd
  have hin : (⟨d, f, q.length, q⟩ : Indexed) ∈ H := by rw [hH]; simp
  have hknown : f ∈ names := hi.known _ (MatcherHistory.mentions_field hin)
  obtain ⟨acc, hsc, rfl⟩ := online_shows hi hknown hq e hk e' hk'
  have bonus : exactPart H q f d = 2 * (q.length : ℚ) + 100 := by
    rw [hH, C56_bonus H1 H2 q f d hne h2, fadd, ofInt, rnd_int _ (by rw [abs_of_nonneg (by positivity)]; push_cast at *; omega)]
    have := rnd_int (2 * (q.length : ℤ) + 100) (by rw [abs_of_nonneg (by positivity)]; push_cast at *; omega)
    push_cast at this ⊢
    exact this
  have hex : exacts H q f d ≠ 0 := by
    intro h0
    rw [exactPart, if_pos h0] at bonus
    have : (0 : ℚ) ≤ (q.length : ℚ) := by positivity
    linarith
  have first : ∃ s, (s, d) ∈ listing acc ∧ 2 * (q.length : ℚ) + 100 ≤ s := by
    by_cases hm : d ∈ k.map (·.2)
    · obtain ⟨⟨rel, _⟩, hx, rfl⟩ := List.mem_map.1 hm
      refine ⟨fadd (exactPart H q f _) rel, mem_listing.2 ((SMap.find_some_iff strict_ltNat hsc.sorted _ _).1 (hsc.matched _ _ hx)), ?_⟩
      have hrel : 0 ≤ rel := C50_nonneg h q .new hs (by intro w hw; cases hw) hw m1 r k e hk _ hx
      dsimp only at bonus ⊢
      rw [bonus, fadd]
      have := rnd_int (2 * (q.length : ℤ) + 100) (by rw [abs_of_nonneg (by positivity)]; push_cast at *; omega)
      push_cast at this
      rw [← this]
      exact Fp.rnd_mono _ _ (by rw [this]; linarith)
    · refine ⟨exactPart H q f d, mem_listing.2 ((SMap.find_some_iff strict_ltNat hsc.sorted _ _).1 ((hsc.other d hm).trans (if_neg hex))), ?_⟩
      rw [bonus]
  obtain ⟨s, hs1, hs2⟩ := first
  refine ⟨List.mem_map.2 ⟨_, hs1, rfl⟩, fun d' hd' h99 i j s0 s' hi' hj => ?_⟩
  have huniq : s0 = s := by
    have h1 := (SMap.find_some_iff strict_ltNat hsc.sorted d s).2 (mem_listing.1 hs1)
    have h2 := (SMap.find_some_iff strict_ltNat hsc.sorted d s0).2 (mem_listing.1 (List.mem_of_getElem? hi'))
    rw [h1] at h2; injection h2 with h2; exact h2.symm
  subst huniq
  have hle : exacts H q f d' ≤ q.length := List.countP_le_length
  have part : exactPart H q f d' = 2 * (exacts H q f d' : ℚ) := by
    rw [C56_no_bonus H q f d' hd', ofInt, rnd_int _ (by rw [abs_of_nonneg (by positivity)]; push_cast at *; omega)]
    push_cast; rfl
  have hle' : (exacts H q f d' : ℚ) ≤ q.length := by exact_mod_cast hle
  have second : ∀ s', (s', d') ∈ listing acc → s' ≤ 2 * (q.length : ℚ) + 99 := by
    intro s' hs'
    have hfd := (SMap.find_some_iff strict_ltNat hsc.sorted d' s').2 (mem_listing.1 hs')
    by_cases hm : d' ∈ k.map (·.2)
    · obtain ⟨⟨rel, _⟩, hx, rfl⟩ := List.mem_map.1 hm
      rw [hsc.matched _ _ hx] at hfd
      injection hfd with hfd
      have hrel := h99 rel hx
      dsimp only at part hle'
      rw [← hfd, part, fadd]
      have := rnd_int (2 * (q.length : ℤ) + 99) (by rw [abs_of_nonneg (by positivity)]; push_cast at *; omega)
      push_cast at this
      rw [← this]
      exact Fp.rnd_mono _ _ (by rw [this] at *; linarith)
    · rw [hsc.other d' hm] at hfd
      split at hfd
      · cases hfd
      · injection hfd with hfd
        rw [← hfd, part]; linarith
  have hlt : s' < s0 := by have := second s' (List.mem_of_getElem? hj); linarith
  refine ⟨?_, hlt⟩
  have hord := listing_rank hsc.sorted
  by_contra hij
  rcases Nat.lt_or_eq_of_le (Nat.le_of_not_lt hij) with hji | rfl
  · obtain ⟨hi1, hi2⟩ := List.getElem?_eq_some_iff.1 hi'
    obtain ⟨hj1, hj2⟩ := List.getElem?_eq_some_iff.1 hj
    have := List.pairwise_iff_getElem.1 hord j i hj1 hi1 hji
    rw [hi2, hj2] at this
    rcases this with hc | ⟨hc, _⟩
    · exact absurd hc (not_lt.2 hlt.le)
    · dsimp only at hc; rw [hc] at hlt; exact lt_irrefl _ hlt
  · rw [hi'] at hj; injection hj with hj; injection hj with hj; rw [hj] at hlt; exact lt_irrefl _ hlt

/-- A document has at most so many words, counting each once in each of its fields. -/
def WordsAtMost (H : MatcherHistory) (d : DocumentID) (n : Nat) : Prop :=
  ∃ P : List (Word × Word), P.length ≤ n ∧ ∀ f w, H.Posting d f w → (f, w) ∈ P

omit [Build] [Icu] [Runtime] in
theorem sumUp_count {l : List ℚ} (h : ∀ x ∈ l, x ≤ 1) (hn : l.length ≤ 2 ^ 53) : sumUp l ≤ l.length := by
  have key : ∀ (l : List ℚ) (a : ℚ) (n : Nat), (∀ x ∈ l, x ≤ 1) → a ≤ n → n + l.length ≤ 2 ^ 53 → l.foldl fadd a ≤ ((n + l.length : Nat) : ℚ) := by
    intro l
    induction l with
    | nil => intro a n _ ha _; simpa using ha
    | cons x l ih =>
      intro a n hx ha hn
      rw [List.length_cons] at hn ⊢
      rw [List.foldl_cons, show n + (l.length + 1) = (n + 1) + l.length by omega]
      refine ih _ _ (fun y hy => hx y (List.mem_cons_of_mem _ hy)) ?_ (by omega)
      have := rnd_int ((n + 1 : Nat) : ℤ) (by rw [abs_of_nonneg (by positivity)]; exact_mod_cast (by omega : n + 1 ≤ 2 ^ 53))
      rw [Int.cast_natCast] at this
      rw [← this, fadd]
      refine Fp.rnd_mono _ _ ?_
      have := hx x (List.mem_cons_self)
      push_cast
      linarith
  cases l with
  | nil => simp [sumUp]
  | cons x l =>
    have := key l x 1 (fun y hy => h y (List.mem_cons_of_mem _ hy)) (by simpa using h x List.mem_cons_self) (by rw [List.length_cons] at hn; omega)
    rw [sumUp, List.length_cons, Nat.add_comm]
    exact this

/-- C105. With weights of at most 1 the relevancy of a document is at most the number of its words. -/
theorem C105_relevancy (h : Ran os m H K) (q : WordList) (p : SearchParameters) (hs : Sane m.e q H) (he : Exact m.e q)
    (hu : ∀ w ∈ filterWords p.filter, Usable w)
    (hw : ∀ f, 0 ≤ IndexWeights.getWeight m.weights f ∧ IndexWeights.getWeight m.weights f ≤ 1) (d : DocumentID) (n : Nat)
    (hn : WordsAtMost H d n) (h53 : n ≤ 2 ^ 53) (m1 : Matcher) (r : MatchResults) (k : List Result)
    (e : m.matchQuery q p = (m1, .ok r)) (hk : Shows r k) (rel : ℚ) (hx : (rel, d) ∈ k) : rel ≤ n := by
  obtain ⟨ident, _, hL⟩ := C47_relevancy h q p hs he hu m1 r k e hk
  obtain ⟨L, h1, h2, _, rfl⟩ := hL rel d hx
  obtain ⟨P, hP, hPm⟩ := hn
  have hlen : L.length ≤ n := by
    have nd : (L.map fun x => (x.1, x.2.1)).Nodup := by
      rw [List.nodup_iff_pairwise_ne, List.pairwise_map]
      refine h2.imp ?_
      rintro ⟨a, b, _⟩ ⟨c, d, _⟩ hab heq
      injection heq with h3 h4
      dsimp only at h3 h4 hab
      subst h3; subst h4
      rcases hab with hab | ⟨_, hab⟩ <;> exact Nat.lt_irrefl _ hab
    have sub : (L.map fun x => (x.1, x.2.1)) ⊆ P := by
      intro y hy
      obtain ⟨⟨f, w, v⟩, hz, rfl⟩ := List.mem_map.1 hy
      exact hPm _ _ ((h1 f w v).1 hz).1
    have := (nd.subperm sub).length_le
    rw [List.length_map] at this
    omega
  have hone : ∀ y ∈ L.map (fun x => contribution m.weights H x.1 x.2.1 x.2.2), y ≤ 1 := by
    intro y hy
    obtain ⟨⟨f, w, v⟩, hz, rfl⟩ := List.mem_map.1 hy
    obtain ⟨_, _, hc⟩ := (h1 f w v).1 hz
    obtain ⟨x, hxq, hcost, _⟩ := hc.near
    have hv : 0 ≤ v := by
      rw [isEditCost_iff] at hcost
      rw [hcost]; exact best_nonneg (hs.nonNeg x hxq)
    dsimp only
    rw [contribution_eq]
    have hf := factor_bounds H f w hv
    have : (1 : ℚ) = Fp.rnd 1 := rnd_one.symm
    rw [this]
    refine Fp.rnd_mono _ _ ?_
    exact mul_le_one₀ hf.2 (hw f).1 (hw f).2
  have := sumUp_count hone (by rw [List.length_map]; omega)
  rw [List.length_map] at this
  have hc : ((L.length : Nat) : ℚ) ≤ n := by exact_mod_cast hlen
  linarith

/-- C105, what holds of small documents: with weights of at most 1, a document whose text in the field is the query comes before
each of up to 99 words whose text there differs. Missing: as in C105_partial. -/
theorem C105_words_partial (h : Ran os m H K) (q : WordList) (hq : ∀ w ∈ q, Usable w) (hne : q ≠ []) (hl : q.length ≤ 2 ^ 50)
    (hs : Sane m.e q H) (he : Exact m.e q)
    (hw : ∀ f, 0 ≤ IndexWeights.getWeight m.weights f ∧ IndexWeights.getWeight m.weights f ≤ 1) (f : Word) (hf : Usable f) (d : DocumentID)
    (hd : TextIs H d f q) :
    ∃ r k, m.onlineMatch q f = (m, .ok r) ∧ Shows r k ∧ d ∈ k.map (·.2) ∧
      ∀ d', TextDiffers H d' f q → WordsAtMost H d' 99 →
        ∀ (i j : Nat) (s s' : ℚ), k[i]? = some (s, d) → k[j]? = some (s', d') → i < j ∧ s' < s := by
  obtain ⟨H1, H2, hH, h2⟩ := id hd
  have hin : (⟨d, f, q.length, q⟩ : Indexed) ∈ H := by rw [hH]; simp
  obtain ⟨r', e'⟩ := (C54_partial h q hq f hf).2 hs ⟨_, hin, rfl⟩
  obtain ⟨r, k, e, hk, _⟩ := C44_found h q .new hs he rfl
  obtain ⟨names, hi, _⟩ := Ran.start h
  rcases hi.online_known (hi.known _ (MatcherHistory.mentions_field hin)) (q := q) (fun w hw => usable_noNul (hq w hw)) with
    ⟨_, _, e2⟩ | ⟨_, acc, _, _, e2, hsc⟩
  · dsimp only at e2; rw [e'] at e2; cases e2
  dsimp only at e2
  rw [e'] at e2; injection e2 with _ e2; injection e2 with e2; subst e2
  obtain ⟨h1, h2⟩ := C105_partial h q hq hne hl hs (fun f => (hw f).1) f d hd m m r _ k _ e hk e' (shows_addAll acc)
  refine ⟨_, _, e', shows_addAll acc, h1, fun d' h3 h4 => h2 d' h3 ?_⟩
  intro rel hx
  have := C105_relevancy h q .new hs he (by intro w hw; cases hw) hw d' 99 h4 (by norm_num) m r k e hk rel hx
  exact_mod_cast this

end

section
variable [Build] [Icu] [Runtime] [Fp]

/-- The titles "x x x" and "y". -/
abbrev threeAndOne : MatcherHistory := titlesTexts [Example.wordX, Example.wordX, Example.wordX] [Example.wordY]
abbrev threeX : WordList := [Example.wordX, Example.wordX, Example.wordX]

omit [Build] [Icu] [Runtime] [Fp] in
theorem three_text : TextIs threeAndOne 1 Example.fieldT threeX :=
  ⟨[], [⟨2, Example.fieldT, 1, [Example.wordY]⟩], rfl, by simp⟩

omit [Build] [Icu] [Runtime] [Fp] in
theorem one_differs : TextDiffers threeAndOne 2 Example.fieldT threeX := Or.inl ⟨Example.wordX, by simp, by decide⟩

/-- A matcher of these, with some weight of titles, and what it gives in a search for "x x x". -/
theorem titles_weighted (v : ℚ) : ∃ (m : Matcher) (r r' : MatchResults) (k k' : List Result),
    Ran Example.os m threeAndOne [] ∧ IndexWeights.getWeight m.weights Example.fieldT = v ∧
      (∀ f, f ≠ Example.fieldT → IndexWeights.getWeight m.weights f = 1) ∧ m.e = ErrorValues.new ∧
      Sane m.e threeX threeAndOne ∧ m.matchDefault threeX = (m, .ok r) ∧ Shows r k ∧ m.onlineMatch threeX Example.fieldT = (m, .ok r') ∧ Shows r' k' ∧
      ∃ rel1 rel2, (rel1, 1) ∈ k ∧ (rel2, 2) ∈ k ∧ rel1 = contribution m.weights threeAndOne Example.fieldT Example.wordX 0 ∧
        rel2 = contribution m.weights threeAndOne Example.fieldT Example.wordY 100 := by
  obtain ⟨m, _, _, h, h1, h1w, hs, he, _⟩ :=
    titles_search threeX [Example.wordY]
      (by intro w hw; simp at hw; subst hw; exact ⟨_, rfl, by decide⟩)
      (by intro w hw; simp at hw; subst hw; exact ⟨_, rfl, by decide⟩) (by simp) (by simp) (by decide)
  have hW := Ran.weight Example.fieldT v h
  generalize hM : ({ m with weights := IndexWeights.setWeight m.weights Example.fieldT v } : Matcher) = M at hW
  have hMe : M.e = ErrorValues.new := by subst hM; exact h1
  have hMw : IndexWeights.getWeight M.weights Example.fieldT = v := by
    subst hM
    unfold IndexWeights.setWeight IndexWeights.getWeight
    rw [SMap.find_set strict_wordLt, if_pos rfl]
  have hMo : ∀ f, f ≠ Example.fieldT → IndexWeights.getWeight M.weights f = 1 := by
    intro f hf
    subst hM
    have := h1w f
    unfold IndexWeights.getWeight at this
    unfold IndexWeights.setWeight IndexWeights.getWeight
    rw [SMap.find_set strict_wordLt, if_neg (Ne.symm hf)]
    exact this
  have hs' : Sane M.e [Example.wordX] threeAndOne := by rw [hMe, ← h1]; exact hs
  have he' : Exact M.e [Example.wordX] := by rw [hMe, ← h1]; exact he
  have hset : ∀ w, w ∈ [Example.wordX] ↔ w ∈ threeX := by intro w; simp
  have hs3 : Sane M.e threeX threeAndOne := ⟨fun x hx => hs'.noNul x ((hset x).2 hx), fun x hx => hs'.nonNeg x ((hset x).2 hx),
    fun x hx => hs'.moderate x ((hset x).2 hx), hs'.assertion⟩
  obtain ⟨r, k, e, hk, hm⟩ := C44_found hW [Example.wordX] .new hs' he' rfl
  have e3 : M.matchDefault threeX = (M, .ok r) := (C49_word_set hW _ _ .new hs' hset).symm.trans e
  have hu : ∀ w ∈ threeX, Usable w := by intro w hw; rw [← hset, List.mem_singleton] at hw; subst hw; exact Or.inr Example.goodX
  obtain ⟨r', e'⟩ := (C54_partial hW threeX hu Example.fieldT (Or.inr Example.goodT)).2 hs3 ⟨_, List.mem_cons_self, rfl⟩
  have hin : Example.fieldT ∈ (threeAndOne).mentions := by decide
  obtain ⟨names, hi, _⟩ := Ran.start hW
  rcases hi.online_known (hi.known _ hin) (q := threeX) (fun w hw => usable_noNul (hu w hw)) with ⟨_, _, e2⟩ | ⟨_, acc, _, _, e2, _⟩
  · rw [e'] at e2; cases e2
  rw [e'] at e2; injection e2 with _ e2; injection e2 with e2; subst e2
  have found : ∀ (d : DocumentID) (l : Letter), threeAndOne.Posting d Example.fieldT [l] → ∃ rel, (rel, d) ∈ k := by
    intro d l hp
    obtain ⟨⟨x, hx, hy⟩, _⟩ := (close_letter .new 0x78#16 l _).2 rfl
    rw [List.mem_singleton] at hx
    subst hx
    have := (hm d).2 ⟨_, _, Example.wordX, _, hp, rfl, by simp, by rw [hMe]; exact hy⟩
    obtain ⟨⟨rel, _⟩, hx, rfl⟩ := List.mem_map.1 this
    exact ⟨rel, hx⟩
  have p1 : threeAndOne.Posting 1 Example.fieldT [0x78#16] := by decide
  have p2 : threeAndOne.Posting 2 Example.fieldT [0x79#16] := by decide
  obtain ⟨rel1, hr1⟩ := found 1 _ p1
  obtain ⟨rel2, hr2⟩ := found 2 _ p2
  have v1 := titles_value (l := 0x78#16) hW hMe hs' he' e hk hr1 p1 (by
    intro w hw
    rcases (posting_titles hw).2 with ⟨_, hw⟩ | ⟨hd, _⟩
    · simpa [Example.wordX] using hw
    · cases hd)
  have v2 := titles_value (l := 0x79#16) hW hMe hs' he' e hk hr2 p2 (by
    intro w hw
    rcases (posting_titles hw).2 with ⟨hd, _⟩ | ⟨_, hw⟩
    · cases hd
    · exact List.mem_singleton.1 hw)
  rw [if_pos rfl] at v1
  rw [if_neg (by decide)] at v2
  exact ⟨M, r, _, k, _, hW, hMw, hMo, hMe, hs3, e3, hk, e', shows_addAll acc, rel1, rel2, hr1, hr2, v1, v2⟩

/-- C105 is false, whatever the rounding: with a weight of 1000 for titles, `onlineMatch` puts the title "y" above "x x x" in a
search for "x x x". -/
theorem C105_false : ∃ (m : Matcher) (r : MatchResults) (k : List Result) (i j : Nat),
    Ran Example.os m threeAndOne [] ∧ TextIs threeAndOne 1 Example.fieldT threeX ∧ TextDiffers threeAndOne 2 Example.fieldT threeX ∧
      m.onlineMatch threeX Example.fieldT = (m, .ok r) ∧ Shows r k ∧ i < j ∧ k[i]? = some (375, 2) ∧ k[j]? = some (356, 1) := by
  obtain ⟨m, r, r', k, k', h, hw, _, h1, hs, e, hk, e', hk', rel1, rel2, hr1, hr2, v1, v2⟩ := titles_weighted 1000
  have hu : ∀ w ∈ threeX, Usable w := by intro w hw; simp at hw; subst hw; exact Or.inr Example.goodX
  have hr : ∀ n : ℤ, |n| ≤ 2 ^ 53 → Fp.rnd (n : ℚ) = n := rnd_int
  have r0 : Fp.rnd 0 = 0 := rnd_zero
  have r1 : Fp.rnd 1 = 1 := rnd_one
  have r3 : Fp.rnd 3 = 3 := by simpa using hr 3 (by norm_num)
  have r4 : Fp.rnd 4 = 4 := by simpa using hr 4 (by norm_num)
  have r6 : Fp.rnd 6 = 6 := by simpa using hr 6 (by norm_num)
  have r100 : Fp.rnd 100 = 100 := rnd_hundred
  have r106 : Fp.rnd 106 = 106 := by simpa using hr 106 (by norm_num)
  have r200 : Fp.rnd 200 = 200 := by simpa using hr 200 (by norm_num)
  have r250 : Fp.rnd 250 = 250 := by simpa using hr 250 (by norm_num)
  have r356 : Fp.rnd 356 = 356 := by simpa using hr 356 (by norm_num)
  have r375 : Fp.rnd 375 = 375 := by simpa using hr 375 (by norm_num)
  have r14 : Fp.rnd (1/4) = 1/4 := by have := Fp.rnd_exact 1 2 (by norm_num) (by norm_num); norm_num at this ⊢; exact this
  have r34 : Fp.rnd (3/4) = 3/4 := by have := Fp.rnd_exact 3 2 (by norm_num) (by norm_num); norm_num at this ⊢; exact this
  have r12 : Fp.rnd (1/2) = 1/2 := by have := Fp.rnd_exact 1 1 (by norm_num) (by norm_num); norm_num at this ⊢; exact this
  have r38 : Fp.rnd (3/8) = 3/8 := by have := Fp.rnd_exact 3 3 (by norm_num) (by norm_num); norm_num at this ⊢; exact this
  have c1 : threeAndOne.count Example.fieldT Example.wordX = 3 := by decide
  have c2 : threeAndOne.count Example.fieldT Example.wordY = 1 := by decide
  have c3 : threeAndOne.maxCount Example.fieldT = 3 := by decide
  have w1 : rel1 = 250 := by
    rw [v1, contribution, c1, c3, hw]
    simp only [fmul, fsub, fadd, ofInt]
    norm_num [r0, r1, r3, r4, r100, r34, r14, r250]
  have w2 : rel2 = 375 := by
    rw [v2, contribution, c2, c3, hw]
    simp only [fmul, fsub, fadd, ofInt]
    norm_num [r1, r4, r100, r200, r34, r14, r12, r38, r375]
  obtain ⟨q1, _, _, hord⟩ := C56_partial h threeX hu Example.fieldT ⟨_, List.mem_cons_self, rfl⟩ m m r r' k k' e hk e' hk'
  have x1 := q1 _ _ hr1
  have x2 := q1 _ _ hr2
  have y1 : exacts threeAndOne threeX Example.fieldT 1 = 3 := by decide
  have y2 : exacts threeAndOne threeX Example.fieldT 2 = 0 := by decide
  have y3 : threeAndOne.size 1 Example.fieldT = some 3 := by decide
  rw [exactPart, y1, y3, if_neg (by decide), if_pos ⟨rfl, rfl⟩, w1] at x1
  rw [exactPart, y2, if_pos rfl, w2] at x2
  have z1 : fadd (fadd (ofInt (2 * ((3 : Nat) : Int))) 100) 250 = 356 := by
    simp only [fadd, ofInt]
    norm_num [r6, r106, r356]
  have z2 : fadd 0 375 = 375 := by rw [fadd, zero_add, r375]
  rw [z1] at x1
  rw [z2] at x2
  obtain ⟨j, hj⟩ := List.mem_iff_getElem?.1 x1
  obtain ⟨i, hi⟩ := List.mem_iff_getElem?.1 x2
  refine ⟨m, r', k', i, j, h, three_text, one_differs, e', hk', ?_, hi, hj⟩
  obtain ⟨hi1, hi2⟩ := List.getElem?_eq_some_iff.1 hi
  obtain ⟨hj1, hj2⟩ := List.getElem?_eq_some_iff.1 hj
  by_contra hij
  rcases Nat.lt_or_eq_of_le (Nat.le_of_not_lt hij) with hji | rfl
  · have := List.pairwise_iff_getElem.1 hord j i hj1 hi1 hji
    rw [hi2, hj2] at this
    rcases this with hc | ⟨hc, _⟩ <;> norm_num at hc
  · rw [hi] at hj; injection hj with hj; injection hj with hj; norm_num at hj

/-- With a weight of 1 "x x x" comes first. -/
example : ∃ (m : Matcher) (r : MatchResults) (k : List Result),
    Ran Example.os m threeAndOne [] ∧ m.onlineMatch threeX Example.fieldT = (m, .ok r) ∧ Shows r k ∧ 1 ∈ k.map (·.2) ∧ 2 ∈ k.map (·.2) ∧
      ∀ (i j : Nat) (s s' : ℚ), k[i]? = some (s, 1) → k[j]? = some (s', 2) → i < j ∧ s' < s := by
  obtain ⟨m, r, r', k, k', h, hw, ho, h1, hs, e, hk, e', hk', rel1, rel2, hr1, hr2, _⟩ := titles_weighted 1
  have hu : ∀ w ∈ threeX, Usable w := by intro w hw; simp at hw; subst hw; exact Or.inr Example.goodX
  have hall : ∀ f, 0 ≤ IndexWeights.getWeight m.weights f ∧ IndexWeights.getWeight m.weights f ≤ 1 := by
    intro f
    by_cases hf : f = Example.fieldT
    · rw [hf, hw]; norm_num
    · rw [ho f hf]; norm_num
  obtain ⟨r2, k2, e2, hk2, a1, a2⟩ := C105_words_partial h threeX hu (by simp) (by simp) hs (by rw [h1]; exact exact_default _) hall
    Example.fieldT (Or.inr Example.goodT) 1 three_text
  rw [e'] at e2; injection e2 with _ e2; injection e2 with e2; subst e2
  obtain rfl := Columbus.Shows.unique hk' hk2
  have q1 := (C56_partial h threeX hu Example.fieldT ⟨_, List.mem_cons_self, rfl⟩ m m r r' k k' e hk e' hk').1
  refine ⟨m, r', k', h, e', hk', a1, List.mem_map.2 ⟨_, q1 _ _ hr2, rfl⟩, a2 2 one_differs ⟨[(Example.fieldT, Example.wordY)], by simp, ?_⟩⟩
  intro f w hp
  obtain ⟨rfl, ⟨hd, _⟩ | ⟨_, hw⟩⟩ := posting_titles hp
  · cases hd
  · rw [List.mem_singleton.1 hw]; simp

end

end Columbus.Props
