import Verif.Proofs.Better
import Verif.Props.Arithmetic
import Verif.Props.ProgramExample
/-
C96: what makes one document of a search rank above another.
-/

namespace Columbus.Props
open Columbus Spec

section
variable [Build] [Icu] [Runtime] [Fp] {os : Nat → Bool} {m : Matcher} {H : MatcherHistory} {K : List Word}

/-- C96. Without negative weights, a document that has all words that made another one match, in the same fields, has no
lower relevancy, in double arithmetic. If its identifier is the lower one it is listed earlier. -/
theorem C96_more_words (h : Ran os m H K) (q : WordList) (p : SearchParameters) (hs : Sane m.e q H) (he : Exact m.e q)
    (hw : ∀ f, 0 ≤ IndexWeights.getWeight m.weights f) (hu : ∀ w ∈ filterWords p.filter, Usable w) (m' : Matcher)
    (r : MatchResults) (k : List Result) (e : m.matchQuery q p = (m', .ok r)) (hk : Shows r k) (i j : Nat) (rel rel' : ℚ)
    (d d' : DocumentID) (hi : k[i]? = some (rel, d)) (hj : k[j]? = some (rel', d'))
    (hd : ∀ f w v, H.Posting d' f w → p.isNonsearchingField f = false → CloseTo m.e p q w v → H.Posting d f w) :
    rel' ≤ rel ∧ (d < d' → i < j) := by
  have hle : rel' ≤ rel := by
    obtain ⟨ident, _, hL⟩ := C47_relevancy h q p hs he hu m' r k e hk
    obtain ⟨L, a1, a2, _, rfl⟩ := hL rel d (List.mem_of_getElem? hi)
    obtain ⟨L', b1, b2, _, rfl⟩ := hL rel' d' (List.mem_of_getElem? hj)
    have hsub : L'.Sublist L := by
      refine sublist_of_sorted ?_ ?_ b2 a2 ?_
      · rintro x (hx | ⟨_, hx⟩) <;> exact Nat.lt_irrefl _ hx
      · intro x y hxy hyx
        rcases hxy with hxy | ⟨hxy, hxy'⟩ <;> rcases hyx with hyx | ⟨hyx, hyx'⟩
        · exact Nat.lt_asymm hxy hyx
        · exact absurd hxy (by rw [hyx]; exact Nat.lt_irrefl _)
        · exact absurd hyx (by rw [hxy]; exact Nat.lt_irrefl _)
        · exact Nat.lt_asymm hxy' hyx'
      · rintro ⟨f, w, v⟩ hx
        obtain ⟨h1, h2, h3⟩ := (b1 f w v).1 hx
        exact (a1 f w v).2 ⟨hd f w v h1 h2 h3, h2, h3⟩
    refine sumUp_sublist (hsub.map _) ?_ ?_
    · intro x hx
      obtain ⟨⟨f, w, v⟩, hy, rfl⟩ := List.mem_map.1 hx
      exact contribution_nonneg (Columbus.CloseTo.bounds hs.nonNeg ((a1 f w v).1 hy).2.2).1 (hw f)
    · intro x hx
      obtain ⟨_, _, rfl⟩ := List.mem_map.1 hx
      exact contribution_rnd ..
  refine ⟨hle, fun hlt => ?_⟩
  obtain ⟨k', hk', _, hord⟩ := C46_ranked m m' q p r e
  obtain rfl := Columbus.Shows.unique hk hk'
  rw [List.pairwise_iff_getElem] at hord
  obtain ⟨hi1, hi2⟩ := List.getElem?_eq_some_iff.1 hi
  obtain ⟨hj1, hj2⟩ := List.getElem?_eq_some_iff.1 hj
  rcases Nat.lt_trichotomy i j with hij | rfl | hij
  · exact hij
  · rw [hi] at hj; injection hj with hj; injection hj with _ hj; exact absurd hlt (by rw [hj]; exact Nat.lt_irrefl _)
  · have := hord j i hj1 hi1 hij
    rw [hi2, hj2] at this
    rcases this with h1 | ⟨_, h1⟩
    · exact absurd hle (not_le.2 h1)
    · exact absurd h1 (Nat.lt_asymm hlt)

/-- C96. Of two documents that match by one word each, of the same field, the one with the closer word that is not the
more frequent one in that field has no lower relevancy. -/
theorem C96_closer (h : Ran os m H K) (q : WordList) (p : SearchParameters) (hs : Sane m.e q H) (he : Exact m.e q)
    (hw : ∀ f, 0 ≤ IndexWeights.getWeight m.weights f) (hu : ∀ w ∈ filterWords p.filter, Usable w) (m' : Matcher)
    (r : MatchResults) (k : List Result) (e : m.matchQuery q p = (m', .ok r)) (hk : Shows r k) (rel rel' : ℚ)
    (d d' : DocumentID) (hi : (rel, d) ∈ k) (hj : (rel', d') ∈ k) (g x y : Word) (v v' : Int) (hv : v ≤ v')
    (hc : H.count g x ≤ H.count g y)
    (hd : ∀ f w u, H.Posting d f w ∧ p.isNonsearchingField f = false ∧ CloseTo m.e p q w u ↔ f = g ∧ w = x ∧ u = v)
    (hd' : ∀ f w u, H.Posting d' f w ∧ p.isNonsearchingField f = false ∧ CloseTo m.e p q w u ↔ f = g ∧ w = y ∧ u = v') :
    rel' ≤ rel := by
  obtain ⟨ident, _, hL⟩ := C47_relevancy h q p hs he hu m' r k e hk
  have single : ∀ {L : List (Word × Word × Int)} {z : Word} {u : Int},
      L.Pairwise (fun a b => ident a.1 < ident b.1 ∨ (ident a.1 = ident b.1 ∧ ident a.2.1 < ident b.2.1)) →
      (∀ f w t, (f, w, t) ∈ L ↔ f = g ∧ w = z ∧ t = u) → L = [(g, z, u)] := by
    intro L z u hp hm
    have nd : L.Nodup := hp.imp (by rintro a b (hab | ⟨_, hab⟩) rfl <;> exact Nat.lt_irrefl _ hab)
    refine List.perm_singleton.1 ((List.perm_ext_iff_of_nodup nd (by simp)).2 ?_)
    rintro ⟨f, w, t⟩
    rw [hm]
    simp
  obtain ⟨L, a1, a2, _, rfl⟩ := hL rel d hi
  obtain ⟨L', b1, b2, _, rfl⟩ := hL rel' d' hj
  rw [single a2 fun f w t => (a1 f w t).trans (hd f w t), single b2 fun f w t => (b1 f w t).trans (hd' f w t)]
  have hv0 : 0 ≤ v := (Columbus.CloseTo.bounds hs.nonNeg ((hd g x v).2 ⟨rfl, rfl, rfl⟩).2.2).1
  exact contribution_better hv0 hv hc (hw g)

end

/-! ### Examples: titles of one-letter words, searched for "x" -/

section
variable [Build] [Icu]

/-- With default prices a letter costs 100 where another is asked for. -/
theorem close_letter (p : SearchParameters) (a b : Letter) (v : Int) :
    CloseTo ErrorValues.new p [[a]] [b] v ↔ v = if a = b then 0 else 100 := by
  have hb : best unitCosts [a] [b] = if a = b then 0 else 100 := by
    by_cases h : a = b
    · subst h
      rw [if_pos rfl]
      exact best_self unit_nonneg (by intro a _; simp [unitCosts])
    · rw [if_neg h]
      simp [best, D, unitCosts, h]
  have hl : (if a = b then (0 : Int) else 100) ≤ limit p [a] := by
    unfold limit
    split <;> split <;> norm_num
  constructor
  · rintro ⟨⟨x, hx, h1, _⟩, _⟩
    rw [List.mem_singleton] at hx
    subst hx
    rw [new_is_default, isEditCost_iff, configured_default, hb] at h1
    exact h1
  · rintro rfl
    refine ⟨⟨[a], by simp, ?_, hl⟩, fun x hx v' h1 _ => ?_⟩
    · rw [new_is_default, isEditCost_iff, configured_default, hb]
    · rw [List.mem_singleton] at hx
      subst hx
      rw [new_is_default, isEditCost_iff, configured_default, hb] at h1
      rw [h1]

/-- Documents 1 and 2 with the titles `a` and `b`. -/
def titles (a b : List Word) : Corpus := [documentOf 1 [(Example.fieldT, a)], documentOf 2 [(Example.fieldT, b)]]
def titlesTexts (a b : List Word) : MatcherHistory :=
  [⟨1, Example.fieldT, a.length, a⟩, ⟨2, Example.fieldT, b.length, b⟩]

end

section
variable [Build] [Icu] [Runtime] [Fp]

omit [Build] [Icu] [Runtime] [Fp] in
theorem posting_titles {a b : List Word} {d : DocumentID} {f w : Word} (h : (titlesTexts a b).Posting d f w) :
    f = Example.fieldT ∧ ((d = 1 ∧ w ∈ a) ∨ (d = 2 ∧ w ∈ b)) := by
  obtain ⟨x, hx, rfl, rfl, hw⟩ := h
  simp only [titlesTexts, List.mem_cons, List.not_mem_nil, or_false] at hx
  rcases hx with rfl | rfl
  · exact ⟨rfl, Or.inl ⟨rfl, hw⟩⟩
  · exact ⟨rfl, Or.inr ⟨rfl, hw⟩⟩

/-- A search of such titles for "x". -/
theorem titles_search (a b : List Word) (ha : ∀ w ∈ a, ∃ l : Letter, w = [l] ∧ 33 ≤ l.toNat ∧ l.toNat < 127)
    (hb : ∀ w ∈ b, ∃ l : Letter, w = [l] ∧ 33 ≤ l.toNat ∧ l.toNat < 127) (na : a ≠ []) (nb : b ≠ [])
    (hs : lettersIn (titlesTexts a b).mentions < 20000000) :
    ∃ m r k, Ran Example.os m (titlesTexts a b) [] ∧ m.e = ErrorValues.new ∧ (∀ f, IndexWeights.getWeight m.weights f = 1) ∧
      Sane m.e [Example.wordX] (titlesTexts a b) ∧ Exact m.e [Example.wordX] ∧
      m.matchQuery [Example.wordX] .new = (m, .ok r) ∧ Shows r k ∧ (∃ rel, (rel, 1) ∈ k) ∧ (∃ rel, (rel, 2) ∈ k) ∧
      ∀ x ∈ k, x.2 = 1 ∨ x.2 = 2 := by
  have ht : corpusTexts (titles a b) = titlesTexts a b := by
    simp [corpusTexts, titles, titlesTexts, documentOf, Document.addText, Document.new, SMap.set]
  have good : ∀ {c : List Word}, (∀ w ∈ c, ∃ l : Letter, w = [l] ∧ 33 ≤ l.toNat ∧ l.toNat < 127) → ∀ w ∈ c, GoodWord w := by
    intro c hc w hw
    obtain ⟨l, rfl, hl⟩ := hc w hw
    exact Example.good_letter hl
  have hc : CorpusOk (titles a b) := by
    intro d hd
    simp only [titles, List.mem_cons, List.not_mem_nil, or_false] at hd
    rcases hd with rfl | rfl
    · refine ⟨_, rfl, ?_⟩
      simp only [List.mem_cons, List.not_mem_nil, or_false, forall_eq]
      exact ⟨Or.inr Example.goodT, fun w hw => Or.inr (good ha w hw)⟩
    · refine ⟨_, rfl, ?_⟩
      simp only [List.mem_cons, List.not_mem_nil, or_false, forall_eq]
      exact ⟨Or.inr Example.goodT, fun w hw => Or.inr (good hb w hw)⟩
  have hne : NoEmpty (titlesTexts a b) := by
    intro x hx
    simp only [titlesTexts, List.mem_cons, List.not_mem_nil, or_false] at hx
    rcases hx with rfl | rfl
    · exact ⟨by simp [Example.fieldT], fun h => by obtain ⟨_, h, _⟩ := ha _ h; cases h⟩
    · exact ⟨by simp [Example.fieldT], fun h => by obtain ⟨_, h, _⟩ := hb _ h; cases h⟩
  obtain ⟨m, _, h, h1, h2, _⟩ := Example.ran_corpus hc (by rw [ht]; exact hs)
  rw [ht, beforeEmpty_self hne] at h
  have sane : Sane m.e [Example.wordX] (titlesTexts a b) := by
    rw [h1]
    refine sane_default (L := 1) (by simp [Example.wordX]) (by simp [Example.wordX]) ?_ (by norm_num)
    intro w hw
    simp only [MatcherHistory.words, titlesTexts, List.flatMap_cons, List.flatMap_nil, List.append_nil, List.mem_append] at hw
    rcases hw with hw | hw
    · obtain ⟨l, rfl, _⟩ := ha w hw; simp
    · obtain ⟨l, rfl, _⟩ := hb w hw; simp
  have ex : Exact m.e [Example.wordX] := by rw [h1]; exact exact_default _
  obtain ⟨r, k, e, hk, hm⟩ := C44_found h [Example.wordX] .new sane ex rfl
  have found : ∀ d, (∃ w, (titlesTexts a b).Posting d Example.fieldT w ∧ ∃ l : Letter, w = [l]) → ∃ rel, (rel, d) ∈ k := by
    rintro d ⟨_, hp, l, rfl⟩
    obtain ⟨⟨x, hx, hy⟩, _⟩ := (close_letter .new 0x78#16 l _).2 rfl
    rw [List.mem_singleton] at hx
    subst hx
    have := (hm d).2 ⟨_, _, Example.wordX, _, hp, rfl, by simp, by rw [h1]; exact hy⟩
    obtain ⟨⟨rel, _⟩, hx, rfl⟩ := List.mem_map.1 this
    exact ⟨rel, hx⟩
  refine ⟨m, r, k, h, h1, by rw [h2]; intro f; rfl, sane, ex, e, hk, found 1 ?_, found 2 ?_, ?_⟩
  · obtain ⟨w, hw⟩ := List.exists_mem_of_ne_nil a na
    exact ⟨w, ⟨⟨1, Example.fieldT, a.length, a⟩, by simp [titlesTexts], rfl, rfl, hw⟩, (ha w hw).imp fun _ h => h.1⟩
  · obtain ⟨w, hw⟩ := List.exists_mem_of_ne_nil b nb
    exact ⟨w, ⟨⟨2, Example.fieldT, b.length, b⟩, by simp [titlesTexts], rfl, rfl, hw⟩, (hb w hw).imp fun _ h => h.1⟩
  · intro x hx
    obtain ⟨f, w, _, _, hp, _⟩ := (hm x.2).1 (List.mem_map.2 ⟨x, hx, rfl⟩)
    exact (posting_titles hp).2.imp And.left And.left

/-- What a title of one kind of word is worth. -/
theorem titles_value {a b : List Word} {l : Letter} {d : DocumentID} {k : List Result} {m m' : Matcher} {r : MatchResults}
    (h : Ran Example.os m (titlesTexts a b) []) (h1 : m.e = ErrorValues.new)
    (hs : Sane m.e [Example.wordX] (titlesTexts a b)) (he : Exact m.e [Example.wordX])
    (e : m.matchQuery [Example.wordX] .new = (m', .ok r)) (hk : Shows r k) {rel : ℚ} (hm : (rel, d) ∈ k)
    (hp : (titlesTexts a b).Posting d Example.fieldT [l]) (ho : ∀ w, (titlesTexts a b).Posting d Example.fieldT w → w = [l]) :
    rel = contribution m.weights (titlesTexts a b) Example.fieldT [l] (if 0x78#16 = l then 0 else 100) := by
  obtain ⟨ident, _, hL⟩ := C47_relevancy h _ _ hs he (by intro w hw; cases hw) m' r k e hk
  obtain ⟨L, a1, a2, _, rfl⟩ := hL rel d hm
  have : L = [(Example.fieldT, [l], if 0x78#16 = l then 0 else 100)] := by
    have nd : L.Nodup := a2.imp (by rintro a b (hab | ⟨_, hab⟩) rfl <;> exact Nat.lt_irrefl _ hab)
    refine List.perm_singleton.1 ((List.perm_ext_iff_of_nodup nd (by simp)).2 ?_)
    rintro ⟨f, w, t⟩
    rw [a1, h1, List.mem_singleton]
    constructor
    · rintro ⟨q1, _, q3⟩
      obtain ⟨rfl, _⟩ := posting_titles q1
      obtain rfl := ho w q1
      rw [(close_letter .new 0x78#16 l t).1 q3]
    · intro q
      injection q with q1 q2
      injection q2 with q2 q3
      subst q1; subst q2; subst q3
      exact ⟨hp, rfl, (close_letter .new 0x78#16 l _).2 rfl⟩
  rw [this]
  rfl

/-- C96. That a document with a word of the query itself ranks above one with only a similar word is false of the code:
frequent words count less. Here the titles are "x x x" and "y"; the search for "x" puts "y" first. -/
theorem C96_exact_first_false : ∃ (m : Matcher) (r : MatchResults) (k : List Result),
    Ran Example.os m (titlesTexts [Example.wordX, Example.wordX, Example.wordX] [Example.wordY]) [] ∧
      m.matchQuery [Example.wordX] .new = (m, .ok r) ∧ Shows r k ∧ k = [(3/8, 2), (1/4, 1)] := by
  obtain ⟨m, r, k, h, h1, h2, hs, he, e, hk, ⟨rel1, hr1⟩, ⟨rel2, hr2⟩, ho⟩ :=
    titles_search [Example.wordX, Example.wordX, Example.wordX] [Example.wordY]
      (by intro w hw; simp at hw; subst hw; exact ⟨_, rfl, by decide⟩)
      (by intro w hw; simp at hw; subst hw; exact ⟨_, rfl, by decide⟩) (by simp) (by simp) (by decide)
  have v1 := titles_value (l := 0x78#16) h h1 hs he e hk hr1
    ⟨⟨1, Example.fieldT, 3, [Example.wordX, Example.wordX, Example.wordX]⟩, by simp [titlesTexts], rfl, rfl, by simp [Example.wordX]⟩
    (by
      intro w hw
      rcases (posting_titles hw).2 with ⟨_, hw⟩ | ⟨hd, _⟩
      · simpa [Example.wordX, Example.wordY] using hw
      · cases hd)
  have v2 := titles_value (l := 0x79#16) h h1 hs he e hk hr2
    ⟨⟨2, Example.fieldT, 1, [Example.wordY]⟩, by simp [titlesTexts], rfl, rfl, by simp [Example.wordY]⟩
    (by
      intro w hw
      rcases (posting_titles hw).2 with ⟨hd, _⟩ | ⟨_, hw⟩
      · cases hd
      · exact List.mem_singleton.1 hw)
  have r100 : Fp.rnd 100 = 100 := by simpa using Fp.rnd_exact 100 0 (by norm_num) (by norm_num)
  have r200 : Fp.rnd 200 = 200 := by simpa using Fp.rnd_exact 200 0 (by norm_num) (by norm_num)
  have r0 : Fp.rnd 0 = 0 := by simpa using Fp.rnd_exact 0 0 (by norm_num) (by norm_num)
  have r1 : Fp.rnd 1 = 1 := by simpa using Fp.rnd_exact 1 0 (by norm_num) (by norm_num)
  have r3 : Fp.rnd 3 = 3 := by simpa using Fp.rnd_exact 3 0 (by norm_num) (by norm_num)
  have r4 : Fp.rnd 4 = 4 := by simpa using Fp.rnd_exact 4 0 (by norm_num) (by norm_num)
  have r14 : Fp.rnd (1/4) = 1/4 := by have := Fp.rnd_exact 1 2 (by norm_num) (by norm_num); norm_num at this ⊢; exact this
  have r34 : Fp.rnd (3/4) = 3/4 := by have := Fp.rnd_exact 3 2 (by norm_num) (by norm_num); norm_num at this ⊢; exact this
  have r12 : Fp.rnd (1/2) = 1/2 := by have := Fp.rnd_exact 1 1 (by norm_num) (by norm_num); norm_num at this ⊢; exact this
  have r38 : Fp.rnd (3/8) = 3/8 := by have := Fp.rnd_exact 3 3 (by norm_num) (by norm_num); norm_num at this ⊢; exact this
  have c1 : (titlesTexts [Example.wordX, Example.wordX, Example.wordX] [Example.wordY]).count Example.fieldT [0x78#16] = 3 := by decide
  have c2 : (titlesTexts [Example.wordX, Example.wordX, Example.wordX] [Example.wordY]).count Example.fieldT [0x79#16] = 1 := by decide
  have c3 : (titlesTexts [Example.wordX, Example.wordX, Example.wordX] [Example.wordY]).maxCount Example.fieldT = 3 := by decide
  have w1 : rel1 = 1/4 := by
    rw [v1, contribution, c1, c3, h2, if_pos rfl]
    simp only [fmul, fsub, fadd, ofInt]
    norm_num [r0, r1, r3, r4, r100, r34, r14]
  have w2 : rel2 = 3/8 := by
    rw [v2, contribution, c2, c3, h2, if_neg (by decide)]
    simp only [fmul, fsub, fadd, ofInt]
    norm_num [r1, r4, r100, r200, r34, r14, r12, r38]
  refine ⟨m, r, k, h, e, hk, ?_⟩
  obtain ⟨k', hk', hn, hord⟩ := C46_ranked m m _ _ r e
  obtain rfl := Columbus.Shows.unique hk hk'
  subst w1; subst w2
  have one : ∀ {a b : ℚ} {d : DocumentID}, (a, d) ∈ k → (b, d) ∈ k → a = b := by
    intro a b d ha hb
    exact congrArg Prod.fst (List.inj_on_of_nodup_map hn ha hb rfl)
  have hperm : k.Perm [(3/8, 2), (1/4, 1)] := by
    refine (List.perm_ext_iff_of_nodup hn.of_map (by simp)).2 ?_
    rintro ⟨rel, d⟩
    constructor
    · intro hx
      rcases ho _ hx with hd | hd
      · dsimp only at hd; subst hd; rw [one hx hr1]; simp
      · dsimp only at hd; subst hd; rw [one hx hr2]; simp
    · intro hx
      simp only [List.mem_cons, List.not_mem_nil, or_false] at hx
      rcases hx with hx | hx
      · rw [hx]; exact hr2
      · rw [hx]; exact hr1
  refine List.Perm.eq_of_pairwise (le := fun a b : Result => b.1 < a.1 ∨ (a.1 = b.1 ∧ a.2 < b.2)) ?_ hord (by simp; norm_num) hperm
  intro x y _ _ hxy hyx
  exfalso
  rcases hxy with hxy | ⟨hxy, hxy'⟩ <;> rcases hyx with hyx | ⟨hyx, hyx'⟩
  · exact absurd hxy (not_lt.2 hyx.le)
  · exact absurd hxy (by rw [hyx]; exact lt_irrefl _)
  · exact absurd hyx (by rw [hxy]; exact lt_irrefl _)
  · exact Nat.lt_asymm hxy' hyx'

/-- "x y" has the one word of "x", and another close one. -/
example : ∃ (m : Matcher) (r : MatchResults) (k : List Result) (i j : Nat) (rel rel' : ℚ),
    Ran Example.os m (titlesTexts [Example.wordX, Example.wordY] [Example.wordX]) [] ∧
      m.matchQuery [Example.wordX] .new = (m, .ok r) ∧ Shows r k ∧ k[i]? = some (rel, 1) ∧ k[j]? = some (rel', 2) ∧
      (∀ w, (titlesTexts [Example.wordX, Example.wordY] [Example.wordX]).Posting 2 Example.fieldT w →
        (titlesTexts [Example.wordX, Example.wordY] [Example.wordX]).Posting 1 Example.fieldT w) ∧ rel' ≤ rel ∧ i < j := by
  obtain ⟨m, r, k, h, h1, h2, hs, he, e, hk, ⟨rel1, hr1⟩, ⟨rel2, hr2⟩, _⟩ :=
    titles_search [Example.wordX, Example.wordY] [Example.wordX]
      (by intro w hw; simp at hw; rcases hw with rfl | rfl <;> exact ⟨_, rfl, by decide⟩)
      (by intro w hw; simp at hw; subst hw; exact ⟨_, rfl, by decide⟩) (by simp) (by simp) (by decide)
  obtain ⟨i, hi⟩ := List.mem_iff_getElem?.1 hr1
  obtain ⟨j, hj⟩ := List.mem_iff_getElem?.1 hr2
  have hp : ∀ w, (titlesTexts [Example.wordX, Example.wordY] [Example.wordX]).Posting 2 Example.fieldT w →
      (titlesTexts [Example.wordX, Example.wordY] [Example.wordX]).Posting 1 Example.fieldT w := by
    intro w hw
    rcases (posting_titles hw).2 with ⟨hd, _⟩ | ⟨_, hw⟩
    · cases hd
    · rw [List.mem_singleton.1 hw]; decide
  obtain ⟨a, b⟩ := C96_more_words h _ _ hs he (by intro f; rw [h2]; norm_num) (by intro w hw; cases hw) m r k e hk i j rel1 rel2 1 2
    hi hj (by intro f w v hw _ _; obtain ⟨rfl, _⟩ := posting_titles hw; exact hp w hw)
  exact ⟨m, r, k, i, j, rel1, rel2, h, e, hk, hi, hj, hp, a, b (by decide)⟩

/-- "x" is closer than "y" and as rare. -/
example : ∃ (m : Matcher) (r : MatchResults) (k : List Result) (rel rel' : ℚ),
    Ran Example.os m (titlesTexts [Example.wordX] [Example.wordY]) [] ∧
      m.matchQuery [Example.wordX] .new = (m, .ok r) ∧ Shows r k ∧ (rel, 1) ∈ k ∧ (rel', 2) ∈ k ∧ rel' ≤ rel := by
  obtain ⟨m, r, k, h, h1, h2, hs, he, e, hk, ⟨rel1, hr1⟩, ⟨rel2, hr2⟩, _⟩ :=
    titles_search [Example.wordX] [Example.wordY]
      (by intro w hw; simp at hw; subst hw; exact ⟨_, rfl, by decide⟩)
      (by intro w hw; simp at hw; subst hw; exact ⟨_, rfl, by decide⟩) (by simp) (by simp) (by decide)
  have only : ∀ (d : DocumentID) (l : Letter), (titlesTexts [Example.wordX] [Example.wordY]).Posting d Example.fieldT [l] →
      (∀ f w, (titlesTexts [Example.wordX] [Example.wordY]).Posting d f w → w = [l]) →
      ∀ f w u, (titlesTexts [Example.wordX] [Example.wordY]).Posting d f w ∧
        SearchParameters.new.isNonsearchingField f = false ∧ CloseTo m.e .new [Example.wordX] w u ↔
        f = Example.fieldT ∧ w = [l] ∧ u = if 0x78#16 = l then 0 else 100 := by
    intro d l hp ho f w u
    rw [h1]
    constructor
    · rintro ⟨q1, _, q3⟩
      obtain ⟨rfl, _⟩ := posting_titles q1
      obtain rfl := ho _ w q1
      exact ⟨rfl, rfl, (close_letter .new 0x78#16 l u).1 q3⟩
    · rintro ⟨rfl, rfl, rfl⟩
      exact ⟨hp, rfl, (close_letter .new 0x78#16 l _).2 rfl⟩
  refine ⟨m, r, k, rel1, rel2, h, e, hk, hr1, hr2, ?_⟩
  refine C96_closer h _ _ hs he (by intro f; rw [h2]; norm_num) (by intro w hw; cases hw) m r k e hk rel1 rel2 1 2 hr1 hr2
    Example.fieldT [0x78#16] [0x79#16] 0 100 (by norm_num) (by decide) ?_ ?_
  · refine only 1 0x78#16 (by decide) ?_
    intro f w hw
    rcases (posting_titles hw).2 with ⟨_, hw⟩ | ⟨hd, _⟩
    · exact List.mem_singleton.1 hw
    · cases hd
  · refine only 2 0x79#16 (by decide) ?_
    intro f w hw
    rcases (posting_titles hw).2 with ⟨hd, _⟩ | ⟨_, hw⟩
    · cases hd
    · exact List.mem_singleton.1 hw

end

end Columbus.Props
