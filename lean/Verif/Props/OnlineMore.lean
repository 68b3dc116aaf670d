import Verif.Props.Common
import Verif.Props.Cheaper
import Verif.Proofs.OnlineMore
/-
C121: further words in `onlineMatch`.
-/

namespace Columbus.Props
open Columbus Spec ErrorValues

section
variable [Build] [Icu] [Runtime] [Fp] {os : Nat → Bool} {m : Matcher} {H : MatcherHistory} {K : List Word}

/-! ### C121 -/

/-- What `onlineMatch` is made from. -/
theorem online_answer {names : List Word} (h : MInv m H names) {f : Word} (hf : f ∈ names) {q : WordList} (hq : ∀ w ∈ q, Usable w)
    (hs : Sane m.e q H) {m1 : Matcher} {r : MatchResults} {k : List Result} (e : m.onlineMatch q f = (m1, .ok r)) (hk : Shows r k) :
    ∃ docs acc, IsAnswer m H names .new q docs ∧ IsScores H q f (listing docs) acc ∧ k = listing acc := by
  obtain ⟨docs, ha, e1⟩ := h.matchQuery_eq (p := SearchParameters.new) hs
  have hsorted : SMap.Sorted ltNat docs := by obtain ⟨P, _, hD⟩ := ha; exact hD.sorted
  rw [filtered_trivial _ rfl] at e1
  obtain ⟨acc, hsc, rfl⟩ := online_shows h hf hq e1 (shows_copied (listing_rank hsorted)) e hk
  exact ⟨docs, acc, ha, hsc, rfl⟩

/-- C121, the part that holds. With further words typed, `onlineMatch` lists every document again, and each one without the bonus for a
text equal to the query has no lower score, if no weight is negative. Missing: documents with that bonus, which they may lose
(C121_false). -/
theorem C121_partial (h : Ran os m H K) (q q' : WordList) (hq : ∀ w ∈ q', Usable w) (hsub : q.Subperm q') (hs : Sane m.e q H)
    (hs' : Sane m.e q' H) (hw : ∀ f, 0 ≤ IndexWeights.getWeight m.weights f) (f : Word) (hf : ∃ x ∈ H, x.field = f)
    (m1 m2 : Matcher) (r r' : MatchResults) (k k' : List Result) (e : m.onlineMatch q f = (m1, .ok r)) (hk : Shows r k)
    (e' : m.onlineMatch q' f = (m2, .ok r')) (hk' : Shows r' k') :
    ∀ s d, (s, d) ∈ k → ∃ s', (s', d) ∈ k' ∧
      ((∃ w ∈ q, ¬ H.Posting d f w) ∨ H.size d f ≠ some q.length → s ≤ s') := by
  obtain ⟨names, hi, _⟩ := Ran.start h
  obtain ⟨x, hx, rfl⟩ := hf
  have hn := hi.known _ (MatcherHistory.mentions_field hx)
  obtain ⟨docs, acc, ha, hsc, rfl⟩ := online_answer hi hn (fun w hw => hq w (hsub.subset hw)) hs e hk
  obtain ⟨docs', acc', ha', hsc', rfl⟩ := online_answer hi hn hq hs' e' hk'
  intro s d hd
  have hm : ∀ rel, (rel, d) ∈ listing docs → ∃ rel', (rel', d) ∈ listing docs' ∧ rel ≤ rel' := by
    intro rel hr
    obtain ⟨rel', h3, h4⟩ := answer_more hs'.nonNeg hw
      (fun i j v => Columbus.QueryHits.more (fun w hw => hsub.subset hw) (fun _ h => h) (fun _ _ => le_refl _)) ha ha' (mem_listing.1 hr)
    exact ⟨rel', mem_listing.2 h3, h4⟩
  have h0 : ∀ rel, (rel, d) ∈ listing docs' → 0 ≤ rel := fun rel hr => answer_nonneg hs'.nonNeg hw ha' (mem_listing.1 hr)
  by_cases hb : (∃ w ∈ q, ¬ H.Posting d x.field w) ∨ H.size d x.field ≠ some q.length
  · obtain ⟨s', hs1, hs2⟩ := hsc.grow hsc' hm h0 (exacts_subperm hsub) (by
      rw [C56_no_bonus H q x.field d hb]
      refine le_trans (Fp.rnd_mono _ _ ?_) (exactPart_ge H q' x.field d)
      have := exacts_subperm (H := H) (f := x.field) (d := d) hsub
      exact_mod_cast (by omega : 2 * (exacts H q x.field d : Int) ≤ 2 * (exacts H q' x.field d : Int))) (mem_listing.1 hd)
    exact ⟨s', mem_listing.2 hs1, fun _ => hs2⟩
  · have hlisted : ∃ s', (d, s') ∈ acc' := by
      by_cases hd' : d ∈ (listing docs').map (·.2)
      · obtain ⟨⟨rel, d'⟩, hr, rfl⟩ := List.mem_map.1 hd'
        exact ⟨_, (SMap.find_some_iff strict_ltNat hsc'.sorted _ _).1 (hsc'.matched _ _ hr)⟩
      · have hd0 : d ∉ (listing docs).map (·.2) := by
          intro h1
          obtain ⟨⟨rel, d'⟩, hr, rfl⟩ := List.mem_map.1 h1
          obtain ⟨rel', h2, _⟩ := hm rel hr
          exact hd' (List.mem_map.2 ⟨_, h2, rfl⟩)
        have hfd := (SMap.find_some_iff strict_ltNat hsc.sorted d s).2 (mem_listing.1 hd)
        rw [hsc.other d hd0] at hfd
        split at hfd
        · cases hfd
        · rename_i hne
          have := exacts_subperm (H := H) (f := x.field) (d := d) hsub
          exact ⟨_, (SMap.find_some_iff strict_ltNat hsc'.sorted _ _).1 (by rw [hsc'.other d hd', if_neg (by omega)])⟩
    obtain ⟨s', h1⟩ := hlisted
    exact ⟨s', mem_listing.2 h1, fun h2 => absurd h2 hb⟩

/-- C121. With settings of which no price is higher, for the lengths of the words searched for, `onlineMatch` lists every document again,
with no lower score, if no weight is negative. -/
theorem C121_cheaper (h : Ran os m H K) (e' : ErrorValues) (ops : List ErrOp) (h' : e' = afterOps ops) (q : WordList)
    (hq : ∀ w ∈ q, Usable w) (hc : ∀ x ∈ q, NoDearer (configured e' x.length) (configured m.e x.length)) (hs : Sane m.e q H)
    (hs' : Sane e' q H) (hw : ∀ f, 0 ≤ IndexWeights.getWeight m.weights f) (f : Word) (hf : ∃ x ∈ H, x.field = f)
    (m1 m2 : Matcher) (r r' : MatchResults) (k k' : List Result) (e : m.onlineMatch q f = (m1, .ok r)) (hk : Shows r k)
    (e2 : ({ m with e := e' } : Matcher).onlineMatch q f = (m2, .ok r')) (hk' : Shows r' k') :
    ∀ s d, (s, d) ∈ k → ∃ s', (s', d) ∈ k' ∧ s ≤ s' := by
  obtain ⟨names, hi, _⟩ := Ran.start h
  have hi' : MInv { m with e := e' } H names :=
    ⟨hi.store, hi.known, hi.ixs, hi.has, hi.keys, hi.post, hi.docs, hi.sizes, ⟨ops, h'⟩, hi.stats⟩
  obtain ⟨x, hx, rfl⟩ := hf
  have hn := hi.known _ (MatcherHistory.mentions_field hx)
  obtain ⟨docs, acc, ha, hsc, rfl⟩ := online_answer hi hn hq hs e hk
  obtain ⟨docs', acc', ha', hsc', rfl⟩ := online_answer hi' hn hq hs' e2 hk'
  intro s d hd
  obtain ⟨s', hs1, hs2⟩ := hsc.grow hsc' (d := d) (fun rel hr => by
      obtain ⟨rel', h3, h4⟩ := answer_closer hs'.nonNeg hw (fun i j v => Columbus.QueryHits.cheaper hc) ha ha' (mem_listing.1 hr)
      exact ⟨rel', mem_listing.2 h3, h4⟩)
    (fun rel hr => answer_nonneg (m := { m with e := e' }) hs'.nonNeg hw ha' (mem_listing.1 hr)) (le_refl _) (le_refl _) (mem_listing.1 hd)
  exact ⟨s', mem_listing.2 hs1, hs2⟩

/-- A document with the title "save", searched for in the title with a query that has this word. -/
theorem saved_title {m : Matcher} (h : Ran Example.os m [⟨1, Example.title, 1, [Example.save]⟩] []) (he : m.e = .new) (hw : m.weights = [])
    (q : WordList) (hsv : Example.save ∈ q) (hg : ∀ w ∈ q, GoodWord w ∧ w.length ≤ 100) :
    ∃ r k, m.onlineMatch q Example.title = (m, .ok r) ∧ Shows r k ∧ Sane m.e q [⟨1, Example.title, 1, [Example.save]⟩] ∧
      (fadd (exactPart [⟨1, Example.title, 1, [Example.save]⟩] q Example.title 1)
        (contribution [] [⟨1, Example.title, 1, [Example.save]⟩] Example.title Example.save 0), 1) ∈ k := by
  have hs : Sane m.e q [⟨1, Example.title, 1, [Example.save]⟩] := by
    rw [he]
    exact sane_default (L := 100) (fun x hx => (hg x hx).1.noNul) (fun x hx => (hg x hx).2) (by decide) (by norm_num)
  have hex : Exact m.e q := by rw [he]; exact exact_default _
  have hu : ∀ w ∈ q, Usable w := fun w hw => Or.inr (hg w hw).1
  have hfield : ∃ x ∈ [(⟨1, Example.title, 1, [Example.save]⟩ : Indexed)], x.field = Example.title := ⟨_, List.mem_singleton.2 rfl, rfl⟩
  obtain ⟨r', e'⟩ := (C54_partial h q hu Example.title (Or.inr Example.good_title)).2 hs hfield
  obtain ⟨r, k, e, hk, hm⟩ := C44_found h q .new hs hex rfl
  obtain ⟨names, hi, _⟩ := Ran.start h
  rcases hi.online_known (hi.known Example.title (by decide)) (q := q) (fun w hw => (hg w hw).1.noNul) with ⟨_, _, e2⟩ | ⟨_, acc, _, _, e2, _⟩
  · rw [e'] at e2; cases e2
  rw [e'] at e2; injection e2 with _ e2; injection e2 with e2; subst e2
  refine ⟨_, _, e', shows_addAll acc, hs, ?_⟩
  have hpost : MatcherHistory.Posting [(⟨1, Example.title, 1, [Example.save]⟩ : Indexed)] 1 Example.title Example.save :=
    ⟨_, List.mem_singleton.2 rfl, rfl, rfl, List.mem_singleton.2 rfl⟩
  obtain ⟨x, hx, hcost, hl⟩ := ((close_self hsv (by decide)).2 (rfl : (0 : Int) = 0)).near
  have hin : 1 ∈ k.map (·.2) := (hm 1).2 ⟨Example.title, Example.save, x, 0, hpost, rfl, hx, by rw [he]; exact hcost, hl⟩
  obtain ⟨⟨rel, d⟩, hrel, hd⟩ := List.mem_map.1 hin
  dsimp only at hd
  subst hd
  obtain ⟨ident, _, hall⟩ := C47_relevancy h q .new hs hex (fun w hw => by cases hw) m r k e hk
  obtain ⟨L, a1, a2, _, a4⟩ := hall rel 1 hrel
  have nd : L.Nodup := a2.imp (by
    rintro a b hab rfl
    rcases hab with h | ⟨_, h⟩ <;> exact lt_irrefl _ h)
  have hp : L.Perm [(Example.title, Example.save, 0)] := by
    refine (List.perm_ext_iff_of_nodup nd (by decide)).2 ?_
    rintro ⟨f, w, v⟩
    rw [a1, he]
    simp only [List.mem_singleton, Prod.mk.injEq]
    constructor
    · rintro ⟨⟨x, hx, _, rfl, hwx⟩, _, hcl⟩
      rw [List.mem_singleton] at hx
      subst hx
      obtain rfl := List.mem_singleton.1 hwx
      exact ⟨rfl, rfl, (close_self hsv (by decide)).1 hcl⟩
    · rintro ⟨rfl, rfl, rfl⟩
      exact ⟨hpost, rfl, (close_self hsv (by decide)).2 rfl⟩
  obtain rfl := List.perm_singleton.1 hp
  rw [hw] at a4
  have a5 : rel = contribution [] [⟨1, Example.title, 1, [Example.save]⟩] Example.title Example.save 0 := a4
  rw [← a5]
  exact (C56_partial h q hu Example.title hfield m m r _ k _ e hk e' (shows_addAll acc)).1 rel 1 hrel

/-- The title "save", for the query "save as as" after "save as": no bonus. -/
example : ∃ (m : Matcher) (r r' : MatchResults) (k k' : List Result) (s : ℚ), Ran Example.os m [⟨1, Example.title, 1, [Example.save]⟩] [] ∧
    [Example.save, Example.as].Subperm [Example.save, Example.as, Example.as] ∧
    Sane m.e [Example.save, Example.as] [⟨1, Example.title, 1, [Example.save]⟩] ∧
    Sane m.e [Example.save, Example.as, Example.as] [⟨1, Example.title, 1, [Example.save]⟩] ∧
    (∀ f, 0 ≤ IndexWeights.getWeight m.weights f) ∧
    m.onlineMatch [Example.save, Example.as] Example.title = (m, .ok r) ∧ Shows r k ∧
    m.onlineMatch [Example.save, Example.as, Example.as] Example.title = (m, .ok r') ∧ Shows r' k' ∧ (s, 1) ∈ k ∧
    MatcherHistory.size [⟨1, Example.title, 1, [Example.save]⟩] 1 Example.title ≠ some [Example.save, Example.as].length := by
  obtain ⟨m, _, h, _, _, _, _, he, _, hw⟩ := two_titles [Example.save] (by simp [Example.good_save]) (by decide) (by decide)
  have hl : ∀ w ∈ [Example.save, Example.as, Example.as], GoodWord w ∧ w.length ≤ 100 := by
    simp only [List.mem_cons, List.not_mem_nil, or_false, forall_eq_or_imp, forall_eq]
    exact ⟨⟨Example.good_save, by decide⟩, ⟨Example.good_as, by decide⟩, Example.good_as, by decide⟩
  obtain ⟨r, k, e, hk, hs, hin⟩ := saved_title h he hw [Example.save, Example.as] (by simp) (fun w hw => hl w (by
    simp only [List.mem_cons, List.not_mem_nil, or_false] at hw ⊢; tauto))
  obtain ⟨r', k', e', hk', hs', _⟩ := saved_title h he hw [Example.save, Example.as, Example.as] (by simp) hl
  exact ⟨m, r, r', k, k', _, h, (List.Sublist.subperm (by decide)), hs, hs',
    by rw [hw]; intro f; simp [IndexWeights.getWeight, SMap.find], e, hk, e', hk', hin, by decide⟩

end

/-! ### The claim itself is false -/

section
attribute [local instance] ieee
variable [Build] [Icu] [Runtime]

/-- C121, the counterexample, in IEEE arithmetic: a document with the title "save" has the score 102.5 for "save" and 2.5 for "save as". -/
theorem C121_false : ∃ (m : Matcher) (r r' : MatchResults) (k k' : List Result),
    Ran Example.os m [⟨1, Example.title, 1, [Example.save]⟩] [] ∧ m.e = .new ∧ m.weights = [] ∧
    m.onlineMatch [Example.save] Example.title = (m, .ok r) ∧ Shows r k ∧
    m.onlineMatch [Example.save, Example.as] Example.title = (m, .ok r') ∧ Shows r' k' ∧
    (205 / 2, 1) ∈ k ∧ (5 / 2, 1) ∈ k' := by
  obtain ⟨m, _, h, _, _, _, _, he, _, hw⟩ := two_titles [Example.save] (by simp [Example.good_save]) (by decide) (by decide)
  obtain ⟨r, k, e, hk, _, hin⟩ := saved_title h he hw [Example.save] (by simp) (by
    simp only [List.mem_cons, List.not_mem_nil, or_false, forall_eq]
    exact ⟨Example.good_save, by decide⟩)
  obtain ⟨r', k', e', hk', _, hin'⟩ := saved_title h he hw [Example.save, Example.as] (by simp) (by
    simp only [List.mem_cons, List.not_mem_nil, or_false, forall_eq_or_imp, forall_eq]
    exact ⟨⟨Example.good_save, by decide⟩, Example.good_as, by decide⟩)
  refine ⟨m, r, r', k, k', h, he, hw, e, hk, e', hk', ?_, ?_⟩
  · rwa [show fadd (exactPart [⟨1, Example.title, 1, [Example.save]⟩] [Example.save] Example.title 1)
        (contribution [] [⟨1, Example.title, 1, [Example.save]⟩] Example.title Example.save 0) = 205 / 2 by decide +kernel] at hin
  · rwa [show fadd (exactPart [⟨1, Example.title, 1, [Example.save]⟩] [Example.save, Example.as] Example.title 1)
        (contribution [] [⟨1, Example.title, 1, [Example.save]⟩] Example.title Example.save 0) = 5 / 2 by decide +kernel] at hin'

end
end Columbus.Props
