import Verif.Spec.Messages
import Verif.Proofs.Program
import Verif.Proofs.CApi
/-
The build with debug messages.
-/

namespace Columbus
open Spec ErrorValues

theorem asUtf8_total (w : Word) : (∃ s, Word.asUtf8 w = .ok s) ∨ (¬ Printable w ∧ Word.asUtf8 w = .error .runtimeError) := by
  by_cases h : Printable w
  · obtain ⟨c, hc⟩ := h; exact Or.inl ⟨_, asUtf8_ok hc⟩
  · exact Or.inr ⟨h, asUtf8_bad h⟩

theorem Spec.Printable.asUtf8 {w : Word} (h : Printable w) : ∃ s, Word.asUtf8 w = .ok s := by
  obtain ⟨c, hc⟩ := h; exact ⟨_, asUtf8_ok hc⟩

/-- Without NUL letters the printed bytes are the word. -/
theorem printed_iff {w : Word} {s : Bytes} (h0 : ∀ l ∈ w, l ≠ 0#16) : Word.asUtf8 w = .ok s ↔ Printed w s := by
  constructor
  · intro h
    by_cases hp : Printable w
    · obtain ⟨c, hc⟩ := hp
      rw [asUtf8_ok' hc h0] at h
      injection h with h; subst h
      exact ⟨c, hc, utf8_encodes (Utf16.scalar hc)⟩
    · rw [asUtf8_bad hp] at h; cases h
  · rintro ⟨c, hc, hs⟩
    rw [asUtf8_ok' hc h0, Utf8.eq_encodes hs]

namespace Verbose

/-! ### src/ErrorValues.cc -/

/-- The value with the message, or the exception, follow from those of the ordinary build. -/
def Same {σ : Type} (v : σ × M Output) (p : σ × Option Fault) : Prop := v.1 = p.1 ∧ faultOf v.2 = p.2

theorem same_setGroupError (e : ErrorValues) {g : Word} (hg : Printable g) (v : Int) (out : Output) :
    Same (setGroupError e g v out) (e.setGroupError g v) := by
  obtain ⟨s, hs⟩ := hg.asUtf8
  unfold setGroupError
  rcases h : e.setGroupError g v with ⟨e', _ | f⟩
  · simp only [hs]; exact ⟨rfl, rfl⟩
  · exact ⟨rfl, rfl⟩

section
variable [Build] [Icu]

theorem printable_ofUtf8 {s : Bytes} {w : Word} (h : Word.ofUtf8 s = .ok w) : Printable w := by
  obtain ⟨hb, c, hc, he⟩ := (ofUtf8_ok_iff s w).1 h
  exact ⟨_, he ▸ lettersOf_lowerCp hc⟩

theorem same_accentLoop (lines : List Bytes) : ∀ (e : ErrorValues) (out : Output),
    Same (accentLoop e out lines) (e.accentLoop lines) := by
  induction lines with
  | nil => intro e out; exact ⟨rfl, rfl⟩
  | cons l r ih =>
    intro e out
    unfold accentLoop ErrorValues.accentLoop
    cases hw : Word.ofUtf8 l with
    | error f => exact ⟨rfl, rfl⟩
    | ok g =>
      simp only
      by_cases hl : g.length = 0
      · rw [if_pos hl, if_pos hl]; exact ih e out
      · rw [if_neg hl, if_neg hl]
        obtain ⟨h1, h2⟩ := same_setGroupError e (printable_ofUtf8 hw) DEFAULT_GROUP_ERROR out
        rcases hv : setGroupError e g DEFAULT_GROUP_ERROR out with ⟨e1, o | f⟩ <;>
          rcases hp : e.setGroupError g DEFAULT_GROUP_ERROR with ⟨e2, _ | f2⟩ <;> rw [hv, hp] at h1 h2 <;>
          simp only [faultOf, reduceCtorEq, Option.some.injEq] at h1 h2 <;> subst h1
        · subst h2; exact ⟨rfl, rfl⟩
        · exact ih _ _

/-- Every group of the file is printed, in order. -/
theorem accentLoop_output (lines : List Bytes) : ∀ (e : ErrorValues) (out out' : Output),
    (accentLoop e out lines).2 = .ok out' → ∃ gs rs, out' = out ++ rs ∧ List.Forall₂ (fun l g => Word.ofUtf8 l = .ok g) lines gs ∧
      List.Forall₂ (fun g r => ∃ s, r = Message.group s ∧ Word.asUtf8 g = .ok s) (gs.filter (· ≠ [])) rs := by
  induction lines with
  | nil =>
    intro e out out' h
    injection h with h
    exact ⟨[], [], by simp [h], .nil, .nil⟩
  | cons l r ih =>
    intro e out out' h
    unfold accentLoop at h
    cases hw : Word.ofUtf8 l with
    | error f => rw [hw] at h; cases h
    | ok g =>
      rw [hw] at h
      simp only at h
      by_cases hl : g.length = 0
      · rw [if_pos hl] at h
        obtain ⟨gs, rs, h1, h2, h3⟩ := ih _ _ _ h
        have hg : g = [] := List.length_eq_zero_iff.1 hl
        exact ⟨g :: gs, rs, h1, .cons hw h2, by simpa [hg] using h3⟩
      · rw [if_neg hl] at h
        have hg : g ≠ [] := by rintro rfl; exact hl rfl
        rcases hv : setGroupError e g DEFAULT_GROUP_ERROR out with ⟨e1, f | o⟩ <;> rw [hv] at h
        · cases h
        · obtain ⟨gs, rs, h1, h2, h3⟩ := ih _ _ _ h
          have ho : ∃ s, o = out ++ [.group s] ∧ Word.asUtf8 g = .ok s := by
            unfold setGroupError at hv
            rcases hg' : e.setGroupError g DEFAULT_GROUP_ERROR with ⟨e2, _ | f⟩ <;> rw [hg'] at hv <;>
              simp only [Prod.mk.injEq, reduceCtorEq, and_false] at hv
            cases hs : Word.asUtf8 g with
            | error f => rw [hs] at hv; simp at hv
            | ok s =>
              rw [hs] at hv
              simp only [Prod.mk.injEq, Except.ok.injEq] at hv
              exact ⟨s, hv.2.symm, rfl⟩
          obtain ⟨s, rfl, hs⟩ := ho
          refine ⟨g :: gs, .group s :: rs, by simp [h1], .cons hw h2, ?_⟩
          rw [List.filter_cons_of_pos (by simpa using hg)]
          exact .cons ⟨s, rfl, hs⟩ h3

theorem same_addAccents (data : DataDir) (e : ErrorValues) (greek : Bool) (out : Output) :
    Same (addAccents data e greek out) (e.addAccents data greek) := by
  unfold addAccents ErrorValues.addAccents
  cases data greek with
  | none => exact ⟨rfl, rfl⟩
  | some ls => exact same_accentLoop _ e out

theorem same_addStandardErrors (data : DataDir) (e : ErrorValues) (out : Output) :
    Same (addStandardErrors data e out) (e.addStandardErrors data) := by
  have step : ∀ {v : ErrorValues × M Output} {p : ErrorValues × Option Fault} {k : ErrorValues → Output → ErrorValues × M Output}
      {j : ErrorValues → ErrorValues × Option Fault}, Same v p → (∀ e o, Same (k e o) (j e)) →
      Same (match v with | (e, .error f) => (e, .error f) | (e, .ok o) => k e o)
        (match p with | (e, some f) => (e, some f) | (e, none) => j e) := by
    rintro ⟨e1, o | f⟩ ⟨e2, _ | f2⟩ k j ⟨h1, h2⟩ hk <;> simp only [faultOf, reduceCtorEq, Option.some.injEq] at h1 h2 <;> subst h1
    · subst h2; exact ⟨rfl, rfl⟩
    · exact hk _ _
  unfold addStandardErrors ErrorValues.addStandardErrors
  refine step (same_addAccents data e false out) fun e o => step (same_addAccents data e true o) fun e o => ?_
  cases e.addKeyboardErrors <;> exact ⟨rfl, rfl⟩

theorem same_errRun (e : ErrorValues) (out : Output) (op : ErrOp) (h : (Call.errors op).Printable) :
    Same (errRun e out op) (op.run e) := by
  have h0 : ∀ p : ErrorValues × Option Fault, Same (match p with
    | (e, none) => (e, .ok out)
    | (e, some f) => (e, (.error f : M Output))) p := by
    rintro ⟨e, _ | f⟩ <;> exact ⟨rfl, rfl⟩
  cases op with
  | setGroupError g v => exact same_setGroupError e h v out
  | addAccents d g => exact same_addAccents d e g out
  | addStandardErrors d => exact same_addStandardErrors d e out
  | _ =>
    unfold errRun
    simp only []
    generalize ErrOp.run e _ = p
    exact h0 p

end

/-! ### src/Matcher.cc -/

theorem forall₂_mem {α β : Type} {R : α → β → Prop} {l : List α} {r : List β} (h : List.Forall₂ R l r) :
    List.Forall₂ (fun a b => a ∈ l ∧ R a b) l r := by
  induction h with
  | nil => exact .nil
  | cons h _ ih => exact .cons ⟨by simp, h⟩ (ih.imp fun a b hab => ⟨by simp [hab.1], hab.2⟩)

section
variable [Build] [Icu] {m : Matcher} {H : MatcherHistory} {names : List Word}

theorem _root_.Columbus.MInv.printed (h : MInv m H names) {k : WordID} {f : Word} (hf : names[k]? = some f) :
    ∃ s, Word.asUtf8 f = .ok s ∧ Printed f s := by
  have hg := h.store.good f (List.mem_of_getElem? hf)
  obtain ⟨s, hs⟩ := (show Printable f from hg.wellFormed).asUtf8
  exact ⟨s, hs, (printed_iff hg.noNul).1 hs⟩

omit [Build] [Icu] in
theorem numNodes_counts {ix : LevIndex} {g : Ghost} {h : IndexHistory} (hi : LInv ix g h) :
    ∃ n, ix.numNodes = .ok n ∧ Counts n fun r : Word => r = [] ∨ ∃ p ∈ h, r <+: p.1 := by
  refine ⟨_, by rw [LevIndex.numNodes, numNodes_spec hi.tinv], (List.range g.n).map g.path, ?_, ?_, by simp⟩
  · apply List.Nodup.map_on _ List.nodup_range
    intro a ha b hb hab
    exact hi.tinv.path_inj a b (List.mem_range.1 ha) (List.mem_range.1 hb) hab
  · intro r
    simp only [List.mem_map, ← hi.paths r, List.mem_range]

omit [Build] [Icu] in
theorem numWords_counts {ix : LevIndex} {g : Ghost} {h : IndexHistory} (hi : LInv ix g h) :
    ∃ n, ix.numWords = .ok n ∧ Counts n fun w : Word => w ≠ [] ∧ ∃ i, (w, i) ∈ h := by
  refine ⟨_, by rw [LevIndex.numWords, numWords_spec hi.tinv],
    ((List.range g.n).filter fun k => g.word k != INVALID_WORDID).map g.path, ?_, ?_, ?_⟩
  · apply List.Nodup.map_on _ (List.nodup_range.filter _)
    intro a ha b hb hab
    exact hi.tinv.path_inj a b (List.mem_range.1 (List.mem_filter.1 ha).1) (List.mem_range.1 (List.mem_filter.1 hb).1) hab
  · intro w
    rw [List.mem_map]
    simp only [List.mem_filter, List.mem_range, bne_iff_ne]
    constructor
    · rintro ⟨k, ⟨hk, hne⟩, rfl⟩
      obtain ⟨h1, h2⟩ := (hi.has (g.path k) (g.word k)).1 ⟨k, hk, rfl, rfl, hne⟩
      exact ⟨h1, _, h2⟩
    · rintro ⟨h1, i, h2⟩
      obtain ⟨k, hk, hpk, hwk, hne⟩ := (hi.has w i).2 ⟨h1, h2⟩
      exact ⟨k, ⟨hk, by rw [hwk]; exact hne⟩, hpk⟩
  · rw [Ghost.count, List.countP_eq_length_filter, List.length_map]

omit [Build] [Icu] in
theorem _root_.Columbus.Spec.Counts.congr {α : Type} {n : Nat} {P Q : α → Prop} (h : Counts n P) (hq : ∀ x, P x ↔ Q x) : Counts n Q := by
  obtain ⟨l, h1, h2, h3⟩ := h
  exact ⟨l, h1, fun x => (h2 x).trans (hq x), h3⟩

theorem _root_.Columbus.MInv.reportLoop (h : MInv m H names) (ks : List WordID) : ∀ out : Output, (∀ k ∈ ks, k ∈ m.indexes.map (·.1)) →
    ∃ rs, Verbose.reportLoop m out ks = .ok (out ++ rs) ∧
      List.Forall₂ (fun k r => Reported H (names.getD k []) r) ks rs := by
  induction ks with
  | nil => intro out _; exact ⟨[], by simp [Verbose.reportLoop], .nil⟩
  | cons k ks ih =>
    intro out hk
    have hfind : HMap.find m.indexes k ≠ none := by
      rw [ne_eq, HMap.find_none_iff]; exact not_not.2 (hk k (by simp))
    obtain ⟨ix, hix⟩ := Option.ne_none_iff_exists'.1 hfind
    obtain ⟨f, hf, hne, g, hl, _, _⟩ := h.ixs k ix hix
    obtain ⟨s, hs, hps⟩ := h.printed hf
    obtain ⟨n, en, hn⟩ := numWords_counts hl
    obtain ⟨n', en', hn'⟩ := numNodes_counts hl
    obtain ⟨rs, e, hr⟩ := ih (out ++ [.index s n n']) (fun x hx => hk x (by simp [hx]))
    refine ⟨.index s n n' :: rs, ?_, .cons ?_ hr⟩
    · rw [Verbose.reportLoop]
      simp only [h.store.getWord hf, ok_bind, hs, hix, en, en', e]
      simp
    · rw [List.getD_eq_getElem?_getD, hf]
      refine ⟨s, n, n', rfl, hps, hn.congr ?_, hn'.congr ?_⟩
      · intro w
        simp only [fieldHistory, List.mem_map, Prod.mk.injEq, Option.getD_some]
        constructor
        · rintro ⟨_, i, w', hw', rfl, _⟩; exact hw'
        · intro hw
          obtain ⟨d, hd⟩ := MatcherHistory.mem_occurrences.1 hw
          exact ⟨(h.store.good w (h.known _ hd.word)).nonempty, _, w, hw, rfl, rfl⟩
      · intro r
        simp only [fieldHistory, Option.getD_some, List.mem_map]
        constructor
        · rintro (rfl | ⟨_, ⟨w, hw, rfl⟩, hr⟩)
          · obtain ⟨w, hw⟩ := List.exists_mem_of_ne_nil _ hne
            exact ⟨w, hw, List.nil_prefix⟩
          · exact ⟨w, hw, hr⟩
        · rintro ⟨w, hw, hr⟩
          exact Or.inr ⟨_, ⟨w, hw, rfl⟩, hr⟩

/-- The message on one query word and one index. -/
def Tried [Runtime] (m : Matcher) (names : List Word) (q : Word) (T : Int) (k : WordID) (r : Message) : Prop :=
  ∃ s t ix ms, r = .matched s t T ms.length ∧ Word.asUtf8 q = .ok s ∧ Printed (names.getD k []) t ∧
    HMap.find m.indexes k = some ix ∧ ix.findWords q m.e T [] = .ok ms

/-- The indexes that are searched. -/
def searchedOf (names : List Word) (p : SearchParameters) (ks : List WordID) : List WordID :=
  ks.filter fun k => !p.isNonsearchingField (names.getD k [])

theorem _root_.Columbus.MInv.vIndexLoop [Runtime] (h : MInv m H names) {p : SearchParameters} {q : Word} {T : Int} (ks : List WordID)
    (hq : searchedOf names p ks ≠ [] → Printable q) : ∀ (best best' : BestIndexMatches) (out : Output),
    (∀ k ∈ ks, k ∈ m.indexes.map (·.1)) → Matcher.indexLoop m p q T best ks = .ok best' →
    ∃ rs, Verbose.indexLoop m p q T best out ks = .ok (best', out ++ rs) ∧
      List.Forall₂ (Tried m names q T) (searchedOf names p ks) rs := by
  induction ks with
  | nil =>
    intro best best' out _ he
    simp only [Matcher.indexLoop, Except.ok.injEq] at he
    subst he
    exact ⟨[], by simp [Verbose.indexLoop], .nil⟩
  | cons k ks ih =>
    intro best best' out hk he
    have hfind : HMap.find m.indexes k ≠ none := by
      rw [ne_eq, HMap.find_none_iff]; exact not_not.2 (hk k (by simp))
    obtain ⟨ix, hix⟩ := Option.ne_none_iff_exists'.1 hfind
    obtain ⟨f, hf, _⟩ := h.ixs k ix hix
    have hget : names.getD k [] = f := by rw [List.getD_eq_getElem?_getD, hf]; rfl
    rw [Matcher.indexLoop] at he
    rw [Verbose.indexLoop]
    simp only [h.store.getWord hf, ok_bind] at he ⊢
    by_cases hx : p.isNonsearchingField f = true
    · simp only [hx, if_true] at he ⊢
      have hcons : searchedOf names p (k :: ks) = searchedOf names p ks := by
        rw [searchedOf, List.filter_cons_of_neg (by simp [hf, hx])]; rfl
      rw [hcons] at hq ⊢
      obtain ⟨rs, e, hr⟩ := ih hq best best' out (fun x hx => hk x (by simp [hx])) he
      exact ⟨rs, e, hr⟩
    · simp only [hx, Bool.false_eq_true, if_false, hix] at he ⊢
      cases hms : ix.findWords q m.e T [] with
      | error f => rw [hms] at he; cases he
      | ok ms =>
        simp only [hms, ok_bind] at he ⊢
        have hcons : searchedOf names p (k :: ks) = k :: searchedOf names p ks := by
          rw [searchedOf, List.filter_cons_of_pos (by simp [hf, hx])]; rfl
        rw [hcons] at hq ⊢
        obtain ⟨s, hs⟩ := (hq (by simp)).asUtf8
        obtain ⟨t, ht, hpt⟩ := h.printed hf
        simp only [hs, ht, ok_bind]
        obtain ⟨rs, e, hr⟩ := ih (fun _ => hq (by simp)) _ best' (out ++ [.matched s t T ms.length]) (fun x hx => hk x (by simp [hx])) he
        refine ⟨.matched s t T ms.length :: rs, by rw [e]; simp, ?_⟩
        exact .cons ⟨s, t, ix, ms, rfl, hs, by rw [hget]; exact hpt, hix, hms⟩ hr

omit [Build] [Icu] in
theorem searchedOf_perm [Runtime] {p : SearchParameters} {ks : List WordID} :
    searchedOf names p (Runtime.iterIndexes ks) ≠ [] ↔ searchedOf names p ks ≠ [] := by
  have := (Runtime.iterIndexes_perm ks).filter fun k => !p.isNonsearchingField (names.getD k [])
  rw [searchedOf, searchedOf, ne_eq, ne_eq, ← List.length_eq_zero_iff, ← List.length_eq_zero_iff, this.length_eq]

theorem _root_.Columbus.MInv.searchedOf_iff (h : MInv m H names) {p : SearchParameters} :
    searchedOf names p (m.indexes.map (·.1)) ≠ [] ↔ ∃ f, H.occurrences f ≠ [] ∧ p.isNonsearchingField f = false := by
  constructor
  · intro hn
    obtain ⟨k, hk⟩ := List.exists_mem_of_ne_nil _ hn
    obtain ⟨h1, h2⟩ := List.mem_filter.1 hk
    have hfind : HMap.find m.indexes k ≠ none := by
      rw [ne_eq, HMap.find_none_iff]; exact not_not.2 h1
    obtain ⟨ix, hix⟩ := Option.ne_none_iff_exists'.1 hfind
    obtain ⟨f, hf, hne, _⟩ := h.ixs k ix hix
    refine ⟨f, hne, ?_⟩
    simpa [List.getD_eq_getElem?_getD, hf] using h2
  · rintro ⟨f, hne, hx⟩
    obtain ⟨w, hw⟩ := List.exists_mem_of_ne_nil _ hne
    obtain ⟨d, hd⟩ := MatcherHistory.mem_occurrences.1 hw
    have hf := getElem?_idxOf (h.known f hd.field)
    have := h.has _ f hf hne
    rw [ne_eq, HMap.find_none_iff, not_not] at this
    refine List.ne_nil_of_mem (List.mem_filter.2 ⟨this, ?_⟩)
    simp [hf, hx]

/-- A query word that cannot be printed, and an index to be searched. -/
theorem _root_.Columbus.MInv.vIndexLoop_bad [Runtime] (h : MInv m H names) {p : SearchParameters} {q : Word} {T : Int}
    (hq : ¬ Printable q) (ks : List WordID) (hn : searchedOf names p ks ≠ []) : ∀ (best best' : BestIndexMatches) (out : Output),
    (∀ k ∈ ks, k ∈ m.indexes.map (·.1)) → Matcher.indexLoop m p q T best ks = .ok best' →
    Verbose.indexLoop m p q T best out ks = .error .runtimeError := by
  induction ks with
  | nil => exact absurd rfl hn
  | cons k ks ih =>
    intro best best' out hk he
    have hfind : HMap.find m.indexes k ≠ none := by
      rw [ne_eq, HMap.find_none_iff]; exact not_not.2 (hk k (by simp))
    obtain ⟨ix, hix⟩ := Option.ne_none_iff_exists'.1 hfind
    obtain ⟨f, hf, _⟩ := h.ixs k ix hix
    rw [Matcher.indexLoop] at he
    rw [Verbose.indexLoop]
    simp only [h.store.getWord hf, ok_bind] at he ⊢
    by_cases hx : p.isNonsearchingField f = true
    · simp only [hx, if_true] at he ⊢
      have hcons : searchedOf names p (k :: ks) = searchedOf names p ks := by
        rw [searchedOf, List.filter_cons_of_neg (by simp [hf, hx])]; rfl
      rw [hcons] at hn
      exact ih hn best best' out (fun x hx => hk x (by simp [hx])) he
    · simp only [hx, Bool.false_eq_true, if_false, hix] at he ⊢
      cases hms : ix.findWords q m.e T [] with
      | error f => rw [hms] at he; cases he
      | ok ms =>
        simp only [ok_bind, show Word.asUtf8 q = .error .runtimeError from asUtf8_bad hq]
        rfl

theorem _root_.Columbus.MInv.vMatchIndexes [Runtime] (h : MInv m H names) {p : SearchParameters} (ws : WordList) :
    ∀ (best best' : BestIndexMatches) (out : Output),
    (searchedOf names p (m.indexes.map (·.1)) ≠ [] → ∀ w ∈ ws, Printable w) → Matcher.matchIndexes m p 0 best ws = .ok best' →
    ∃ rs, Verbose.matchIndexes m p 0 best out ws = .ok (best', out ++ rs) ∧
      List.Forall₂ (fun (x : Word × WordID) r => Tried m names x.1 (limit p x.1) x.2 r)
        (ws.flatMap fun q => (searchedOf names p (Runtime.iterIndexes (m.indexes.map (·.1)))).map fun k => (q, k)) rs := by
  induction ws with
  | nil =>
    intro best best' out _ he
    simp only [Matcher.matchIndexes, Except.ok.injEq] at he
    subst he
    exact ⟨[], by simp [Verbose.matchIndexes], .nil⟩
  | cons q ws ih =>
    intro best best' out hw he
    rw [Matcher.matchIndexes] at he
    rw [Verbose.matchIndexes]
    cases h1 : Matcher.indexLoop m p q (Matcher.wordMaxError p q 0) best (Runtime.iterIndexes (m.indexes.map (·.1))) with
    | error f => rw [h1] at he; cases he
    | ok b1 =>
      rw [h1] at he
      simp only [ok_bind] at he
      obtain ⟨r1, e1, f1⟩ := h.vIndexLoop _ (fun hn => hw (searchedOf_perm.1 hn) q (by simp)) _ _ out (fun k hk => (Runtime.iterIndexes_perm _).mem_iff.1 hk) h1
      obtain ⟨r2, e2, f2⟩ := ih b1 best' (out ++ r1) (fun hn w h => hw hn w (by simp [h])) he
      refine ⟨r1 ++ r2, ?_, ?_⟩
      · rw [e1]; simp only [ok_bind]; rw [e2, List.append_assoc]
      · rw [List.flatMap_cons]
        refine List.rel_append ?_ f2
        rw [List.forall₂_map_left_iff]
        rw [wordMaxError_eq] at f1
        exact f1

theorem _root_.Columbus.MInv.vMatchIndexes_bad [Runtime] (h : MInv m H names) {p : SearchParameters} (ws : WordList)
    (hn : searchedOf names p (m.indexes.map (·.1)) ≠ []) :
    ∀ (best best' : BestIndexMatches) (out : Output), (∃ w ∈ ws, ¬ Printable w) → Matcher.matchIndexes m p 0 best ws = .ok best' →
    Verbose.matchIndexes m p 0 best out ws = .error .runtimeError := by
  induction ws with
  | nil => rintro best best' out ⟨w, hw, _⟩ _; cases hw
  | cons q ws ih =>
    intro best best' out hw he
    rw [Matcher.matchIndexes] at he
    rw [Verbose.matchIndexes]
    cases h1 : Matcher.indexLoop m p q (Matcher.wordMaxError p q 0) best (Runtime.iterIndexes (m.indexes.map (·.1))) with
    | error f => rw [h1] at he; cases he
    | ok b1 =>
      rw [h1] at he
      simp only [ok_bind] at he
      have hk : ∀ k ∈ Runtime.iterIndexes (m.indexes.map (·.1)), k ∈ m.indexes.map (·.1) :=
        fun k hk => (Runtime.iterIndexes_perm _).mem_iff.1 hk
      by_cases hq : Printable q
      · obtain ⟨r1, e1, f1⟩ := h.vIndexLoop _ (fun _ => hq) _ _ out hk h1
        rw [e1]
        simp only [ok_bind]
        refine ih b1 best' (out ++ r1) ?_ he
        obtain ⟨w, hw, hb⟩ := hw
        rcases List.mem_cons.1 hw with rfl | hw
        · exact absurd hq hb
        · exact ⟨w, hw, hb⟩
      · rw [h.vIndexLoop_bad hq _ (searchedOf_perm.2 hn) _ _ out hk h1]
        rfl

/-- The message on one matched word. -/
def Gathered (m : Matcher) (names : List Word) (x : WordID × WordID × Int) (r : Message) : Prop :=
  ∃ s t, r = .searched s t (docsOf m.reverseIndex x.1 x.2.1).length ∧ Printed (names.getD x.2.1 []) s ∧
    Printed (names.getD x.1 []) t

theorem _root_.Columbus.MInv.vGatherWords [Runtime] [Fp] (h : MInv m H names) (i : WordID) (ws : MatchErrorMap) :
    ∀ (docs docs' : SMap DocumentID ℚ) (out : Output), (∀ x ∈ ws, i < names.length ∧ x.1 < names.length) → Matcher.gatherWords m i docs ws = .ok docs' →
    ∃ rs, Verbose.gatherWords m i docs out ws = .ok (docs', out ++ rs) ∧
      List.Forall₂ (Gathered m names) (ws.map fun r => (i, r.1, r.2)) rs := by
  induction ws with
  | nil =>
    intro docs docs' out _ he
    simp only [Matcher.gatherWords, Except.ok.injEq] at he
    subst he
    exact ⟨[], by simp [Verbose.gatherWords], .nil⟩
  | cons x ws ih =>
    intro docs docs' out hw he
    obtain ⟨j, v⟩ := x
    obtain ⟨f, hf⟩ : ∃ f, names[i]? = some f := ⟨_, List.getElem?_eq_getElem (hw (j, v) (by simp)).1⟩
    obtain ⟨t, ht, hpt⟩ := h.printed hf
    obtain ⟨w, hj⟩ : ∃ w, names[j]? = some w := ⟨_, List.getElem?_eq_getElem (hw (j, v) (by simp)).2⟩
    obtain ⟨s, hs, hps⟩ := h.printed hj
    rw [Matcher.gatherWords] at he
    rw [Verbose.gatherWords]
    simp only [h.store.getWord hf, h.store.getWord hj, hs, ht, ok_bind]
    cases h1 : Matcher.gatherDocs m j i v docs (ReverseIndex.findDocuments m.reverseIndex j i) with
    | error f => rw [h1] at he; cases he
    | ok d1 =>
      rw [h1] at he
      simp only [ok_bind] at he ⊢
      obtain ⟨rs, e, hr⟩ := ih d1 docs' (out ++ [.searched s t (ReverseIndex.findDocuments m.reverseIndex j i).length])
        (fun x hx => hw x (by simp [hx])) he
      refine ⟨.searched s t (ReverseIndex.findDocuments m.reverseIndex j i).length :: rs, by rw [e]; simp, .cons ?_ hr⟩
      refine ⟨s, t, by rw [(findDocuments_perm m.reverseIndex i j).length_eq], ?_, ?_⟩
      · rw [List.getD_eq_getElem?_getD, hj]; exact hps
      · rw [List.getD_eq_getElem?_getD, hf]; exact hpt

theorem _root_.Columbus.MInv.vGatherMatched [Runtime] [Fp] (h : MInv m H names) (best : BestIndexMatches) :
    ∀ (docs docs' : SMap DocumentID ℚ) (out : Output), (∀ x ∈ flat best, x.1 < names.length ∧ x.2.1 < names.length) →
    Matcher.gatherMatchedDocuments m docs best = .ok docs' →
    ∃ rs, Verbose.gatherMatchedDocuments m docs out best = .ok (docs', out ++ rs) ∧
      List.Forall₂ (Gathered m names) (flat best) rs := by
  induction best with
  | nil =>
    intro docs docs' out _ he
    simp only [Matcher.gatherMatchedDocuments, Except.ok.injEq] at he
    subst he
    exact ⟨[], by simp [Verbose.gatherMatchedDocuments], .nil⟩
  | cons x best ih =>
    intro docs docs' out hw he
    obtain ⟨i, ws⟩ := x
    rw [Matcher.gatherMatchedDocuments] at he
    rw [Verbose.gatherMatchedDocuments]
    cases h1 : Matcher.gatherWords m i docs ws with
    | error f => rw [h1] at he; cases he
    | ok d1 =>
      rw [h1] at he
      simp only [ok_bind] at he
      have hflat : flat ((i, ws) :: best) = (ws.map fun r => (i, r.1, r.2)) ++ flat best := rfl
      rw [hflat] at hw
      obtain ⟨r1, e1, f1⟩ := h.vGatherWords i ws docs d1 out
        (fun x hx => hw _ (List.mem_append.2 (Or.inl (List.mem_map.2 ⟨x, hx, rfl⟩)))) h1
      obtain ⟨r2, e2, f2⟩ := ih d1 docs' (out ++ r1) (fun x hx => hw x (List.mem_append.2 (Or.inr hx))) he
      refine ⟨r1 ++ r2, ?_, ?_⟩
      · rw [e1]; simp only [ok_bind]; rw [e2, List.append_assoc]
      · rw [hflat]
        exact List.rel_append f1 f2

/-- The messages of a search, before the last one. -/
structure Told [Runtime] [Fp] (m : Matcher) (H : MatcherHistory) (names : List Word) (p : SearchParameters) (query : WordList)
    (docs : SMap DocumentID ℚ) (r1 r2 : Output) : Prop where
  answer : IsAnswer m H names p query docs
  tried : List.Forall₂ (fun (x : Word × WordID) r => Tried m names x.1 (limit p x.1) x.2 r)
    (query.flatMap fun q => (searchedOf names p (Runtime.iterIndexes (m.indexes.map (·.1)))).map fun k => (q, k)) r1
  gathered : ∃ P, IsPairs (QueryHits m.e p H names query) P ∧ List.Forall₂ (Gathered m names) P r2

theorem _root_.Columbus.MInv.vRelevancyMatch [Runtime] [Fp] (h : MInv m H names) {p : SearchParameters} {query : WordList}
    (hs : Sane m.e query H) (hp : searchedOf names p (m.indexes.map (·.1)) ≠ [] → ∀ w ∈ query, Printable w) (out : Output) :
    ∃ docs r1 r2, Told m H names p query docs r1 r2 ∧
      Matcher.relevancyMatch m query p 0 MatchResults.new = .ok (Matcher.addAll MatchResults.new docs) ∧
      Verbose.relevancyMatch m query p 0 MatchResults.new out =
        .ok (Matcher.addAll MatchResults.new docs, out ++ (r1 ++ r2 ++ [.total docs.length, .finished])) := by
  obtain ⟨best, e1, hb⟩ := h.matchIndexes (p := p) hs query [] _ BInv.empty (fun _ h => h)
  have hpair := flat_pairs hb
  have hR : ∀ i j v, (False ∨ ∃ q ∈ query, Hits m.e p H names q i j v) ↔ QueryHits m.e p H names query i j v := by
    intro i j v; simp [QueryHits]
  have hp' : IsPairs (QueryHits m.e p H names query) (flat best) := by
    refine ⟨hpair.sorted, fun i j v => ?_⟩
    rw [hpair.mem]; exact Least.congr (hR i j)
  obtain ⟨docs, hans, er⟩ := h.relevancyMatch (p := p) hs
  have hlt : ∀ x ∈ flat best, x.1 < names.length ∧ x.2.1 < names.length := by
    rintro ⟨i, j, v⟩ hx
    obtain ⟨⟨q, hq, f, w, hf, hw, _⟩, _⟩ := (hp'.mem i j v).1 hx
    exact ⟨(List.getElem?_eq_some_iff.1 hf).1, (List.getElem?_eq_some_iff.1 hw).1⟩
  have hadd : ∀ d d' : SMap DocumentID ℚ, Matcher.addAll .new d = Matcher.addAll .new d' → d = d' := by
    intro d d' hd
    have hd := congrArg MatchResults.results hd
    rw [addAll_eq, addAll_eq] at hd
    refine List.map_injective_iff.2 ?_ (List.append_cancel_left hd)
    rintro ⟨a, b⟩ ⟨c, d⟩ he
    simp only [Prod.mk.injEq] at he ⊢
    exact he.symm
  have er' := er
  rw [Matcher.relevancyMatch, e1] at er'
  simp only [ok_bind] at er'
  cases eg : Matcher.gatherMatchedDocuments m [] best with
  | error f => rw [eg] at er'; cases er'
  | ok d1 =>
    rw [eg] at er'
    simp only [ok_bind, Except.ok.injEq] at er'
    have hd := hadd _ _ er'
    subst hd
    obtain ⟨r1, v1, f1⟩ := h.vMatchIndexes query [] best out hp e1
    obtain ⟨r2, v2, f2⟩ := h.vGatherMatched best [] d1 (out ++ r1) hlt eg
    refine ⟨d1, r1, r2, ⟨hans, f1, _, hp', f2⟩, er, ?_⟩
    rw [Verbose.relevancyMatch, v1]
    simp only [ok_bind]
    rw [v2]
    simp only [ok_bind]
    have hsz : (Matcher.addAll MatchResults.new d1).size = d1.length := by
      rw [MatchResults.size, addAll_eq]; simp [MatchResults.new]
    rw [hsz]
    simp

/-- All messages of a search. -/
def TellsAll [Runtime] [Fp] (m : Matcher) (H : MatcherHistory) (names : List Word) (p : SearchParameters) (query : WordList)
    (rs : Output) : Prop :=
  (query = [] ∧ rs = []) ∨
    (query ≠ [] ∧ ∃ docs r1 r2, Told m H names p query docs r1 r2 ∧ rs = r1 ++ r2 ++ [.total docs.length, .finished])

/-- The outcome with the messages after it. -/
def withOutput {σ α : Type} (out : Output) : σ × M α → σ × M (α × Output)
  | (s, .error f) => (s, .error f)
  | (s, .ok r) => (s, .ok (r, out))

theorem _root_.Columbus.MInv.vMatchQuery [Runtime] [Fp] (h : MInv m H names) {p : SearchParameters} {query : WordList}
    (hs : Sane m.e query H) (hp : searchedOf names p (m.indexes.map (·.1)) ≠ [] → ∀ w ∈ query, Printable w) (out : Output) :
    ∃ rs, TellsAll m H names p query rs ∧ Verbose.matchQuery m query p out = withOutput (out ++ rs) (m.matchQuery query p) := by
  by_cases hq : query = []
  · subst hq
    exact ⟨[], Or.inl ⟨rfl, rfl⟩, by simp [Verbose.matchQuery, Matcher.matchQuery, withOutput]⟩
  · obtain ⟨docs, r1, r2, ht, e1, e2⟩ := h.vRelevancyMatch (p := p) hs hp out
    refine ⟨_, Or.inr ⟨hq, docs, r1, r2, ht, rfl⟩, ?_⟩
    have hlen : ¬ query.length = 0 := by simpa using hq
    have hv : Verbose.matchLoop m query p MatchResults.new 0 out Matcher.maxIterations =
        .ok (⟨(Matcher.addAll .new docs).results, false⟩, out ++ (r1 ++ r2 ++ [.total docs.length, .finished])) := by
      rw [Matcher.maxIterations, Verbose.matchLoop]
      rw [show ((0 : Nat) : Int) * Matcher.increment = 0 by simp, e2]
      simp only [ok_bind]
      rw [if_pos (Or.inr (by rfl : 0 + 1 = Matcher.maxIterations))]
      simp [MatchResults.addResults, MatchResults.new]
    rw [Verbose.matchQuery, Matcher.matchQuery, if_neg hlen, if_neg hlen, hv, matchLoop_eq e1]
    simp only
    rcases Matcher.filterLoop m.reverseIndex p.filter m.store ⟨(Matcher.addAll .new docs).results, false⟩ MatchResults.new
      (List.range (MatchResults.size ⟨(Matcher.addAll .new docs).results, false⟩)) with ⟨s, _ | _⟩ <;> rfl

theorem _root_.Columbus.MInv.vMatchQuery_bad [Runtime] [Fp] (h : MInv m H names) {p : SearchParameters} {query : WordList}
    (hs : Sane m.e query H) (hp : ∃ w ∈ query, ¬ Printable w) (hn : searchedOf names p (m.indexes.map (·.1)) ≠ []) (out : Output) :
    Verbose.matchQuery m query p out = (m, .error .runtimeError) := by
  obtain ⟨best, e1, hb⟩ := h.matchIndexes (p := p) hs query [] _ BInv.empty (fun _ h => h)
  have hlen : ¬ query.length = 0 := by
    obtain ⟨w, hw, _⟩ := hp
    exact fun h0 => by rw [List.length_eq_zero_iff] at h0; subst h0; cases hw
  rw [Verbose.matchQuery, if_neg hlen, Matcher.maxIterations, Verbose.matchLoop,
    show ((0 : Nat) : Int) * Matcher.increment = 0 by simp, Verbose.relevancyMatch, h.vMatchIndexes_bad query hn [] best out hp e1]
  rfl

/-- An online match on a known field is the search followed by the merging. -/
theorem _root_.Columbus.MInv.vOnline_eq [Runtime] [Fp] (h : MInv m H names) {query : WordList} {f : Word} (hs : Sane m.e query H)
    (hf : f ∈ names) : ∃ acc, (∀ out, Verbose.onlineMatch m query f out = match Verbose.matchQuery m query SearchParameters.new out with
      | (m, .error f) => (m, .error f)
      | (m, .ok (fuzzy, out)) => match Matcher.mergeLoop fuzzy acc (List.range fuzzy.size) with
        | .error f => (m, .error f)
        | .ok acc => (m, .ok (Matcher.addAll MatchResults.new acc, out))) ∧
    m.onlineMatch query f = match m.matchQuery query SearchParameters.new with
      | (m, .error f) => (m, .error f)
      | (m, .ok fuzzy) => match Matcher.mergeLoop fuzzy acc (List.range fuzzy.size) with
        | .error f => (m, .error f)
        | .ok acc => (m, .ok (Matcher.addAll MatchResults.new acc)) := by
  obtain ⟨c, e1, hc, hcount⟩ := h.countExacts (getElem?_idxOf hf) query [] ⟨List.Pairwise.nil, by intro d n h; cases h⟩
    hs.noNul
  have hcount' : ∀ d, countOf c d = exacts H query f d := by
    intro d; rw [hcount]; simp [countOf, SMap.find]
  have hposs : ∀ x ∈ c, SMap.find Matcher.ltDW m.originalSizes (x.1, names.idxOf f) ≠ none := by
    rintro ⟨d, n⟩ hx
    have h1 := (SMap.find_some_iff strict_ltNat hc.sorted d n).2 hx
    rw [hc.find, hcount'] at h1
    have h2 : exacts H query f d ≠ 0 := by intro h0; rw [if_pos h0] at h1; cases h1
    dsimp only
    rw [h.sizes, getElem?_idxOf hf]
    have h3 : 0 < exacts H query f d := Nat.pos_of_ne_zero h2
    rw [exacts, List.countP_pos_iff] at h3
    obtain ⟨w, _, hp⟩ := h3
    obtain ⟨x, hx1, hx2, hx3, _⟩ := of_decide_eq_true hp
    exact MatcherHistory.size_of_mem ⟨x, hx1, hx2, hx3⟩
  obtain ⟨acc, e2, hacc, hscore⟩ := exactLoop_spec (querySize := query.length) c [] List.Pairwise.nil
    (SMap.sorted_nodup strict_ltNat hc.sorted) hposs
  refine ⟨acc, fun out => ?_, ?_⟩
  · rw [Verbose.onlineMatch, h.store.hasWord (h.store.good f hf).noNul]
    simp only [hf, decide_true, h.store.getID_old hf, e1, e2]
    rw [show ({ m with store := m.store, originalSizes := m.originalSizes } : Matcher) = m from rfl]
    rcases Verbose.matchQuery m query SearchParameters.new out with ⟨m', f' | ⟨r, o⟩⟩
    · rfl
    · dsimp only
      cases Matcher.mergeLoop r acc (List.range r.size) <;> rfl
  · rw [Matcher.onlineMatch, h.store.hasWord (h.store.good f hf).noNul]
    simp only [hf, decide_true, h.store.getID_old hf, e1, e2]
    rw [show ({ m with store := m.store, originalSizes := m.originalSizes } : Matcher) = m from rfl, Matcher.matchDefault]
    rcases m.matchQuery query SearchParameters.new with ⟨m', f' | r⟩
    · rfl
    · dsimp only
      cases Matcher.mergeLoop r acc (List.range r.size) <;> rfl

theorem _root_.Columbus.MInv.vOnline [Runtime] [Fp] (h : MInv m H names) {query : WordList} {f : Word}
    (hs : Sane m.e query H) (hp : searchedOf names SearchParameters.new (m.indexes.map (·.1)) ≠ [] → ∀ w ∈ query, Printable w) (hu : Usable f) (out : Output) :
    ∃ rs, (f ∈ names → TellsAll m H names SearchParameters.new query rs) ∧
      Verbose.onlineMatch m query f out = withOutput (out ++ rs) (m.onlineMatch query f) := by
  by_cases hf : f ∈ names
  · obtain ⟨rs, ht, e⟩ := h.vMatchQuery (p := SearchParameters.new) hs hp out
    refine ⟨rs, fun _ => ht, ?_⟩
    obtain ⟨acc, e1, e2⟩ := h.vOnline_eq hs hf
    rw [e1, e2, e]
    rcases m.matchQuery query SearchParameters.new with ⟨m', f' | r⟩
    · rfl
    · simp only [withOutput]
      cases Matcher.mergeLoop r acc (List.range r.size) <;> rfl
  · refine ⟨[], fun hm => absurd hm hf, ?_⟩
    rw [h.online_unknown hu hf, Verbose.onlineMatch, h.store.hasWord (usable_noNul hu)]
    simp only [hf, decide_false]
    rcases asUtf8_total f with ⟨s, e⟩ | ⟨hb, e⟩
    · rw [e]; rfl
    · exfalso
      rcases hu with rfl | hg
      · exact hb ⟨[], .nil⟩
      · exact hb hg.wellFormed

theorem _root_.Columbus.MInv.findWords_nodup [Runtime] (h : MInv m H names) {i : WordID} {ix : LevIndex}
    (hix : HMap.find m.indexes i = some ix) {query : WordList} (hs : Sane m.e query H) {q : Word} (hq : q ∈ query) {T : Int}
    {ms : IndexMatches} (he : ix.findWords q m.e T [] = .ok ms) : (ms.map MatchData.matchedWord).Nodup := by
  obtain ⟨f, h1, h2, g, hi, _, _⟩ := h.ixs i ix hix
  obtain ⟨ops, hops⟩ := h.e
  have hmod : Moderate (configured m.e q.length) q (fieldHistory names H f) := by
    obtain ⟨B, L, a, b, c⟩ := hs.moderate q hq
    refine ⟨B, L, a, ?_, c⟩
    intro p hp
    obtain ⟨w, hw, rfl⟩ := List.mem_map.1 hp
    exact b (w, 0) (List.mem_map.2 ⟨w, MatcherHistory.occurrences_words w hw, rfl⟩)
  obtain ⟨B, hfit⟩ := moderate_fits hi hmod
  have hp : Priced m.e (charged m.e q.length) q.length := by rw [hops]; exact charged_priced ops _
  have ha : RowAssertOk (charged m.e q.length) q := by
    rcases hs.assertion with ha | ha
    · exact Or.inl ha
    · exact Or.inr (Or.inr ha.symm)
  obtain ⟨added, e, hnd, _⟩ := findWords_added hi hp hfit (hs.noNul q hq) ha T []
  rw [he] at e
  injection e with e
  rw [e, IndexMatches.sort]
  refine (((Runtime.sortMatches_perm _).map _).nodup_iff).2 ?_
  simpa using hnd

/-- The number of matches of a query word in an index. -/
theorem _root_.Columbus.MInv.findWords_counts [Runtime] (h : MInv m H names) {i : WordID} {ix : LevIndex}
    (hix : HMap.find m.indexes i = some ix) {f : Word} (hf : names[i]? = some f) {query : WordList} (hs : Sane m.e query H)
    (hx : Exact m.e query) {q : Word} (hq : q ∈ query) {T : Int} {ms : IndexMatches} (he : ix.findWords q m.e T [] = .ok ms) :
    Counts ms.length fun w => w ∈ H.occurrences f ∧ ∃ v, IsEditCost (configured m.e q.length) q w v ∧ v ≤ T := by
  have hnd := h.findWords_nodup hix hs hq he
  obtain ⟨ms', e, hmem⟩ := h.findWords hix hf hs hq T
  rw [he] at e
  injection e with e
  subst e
  have hin : ∀ x ∈ ms, ∃ w, names[x.matchedWord]? = some w := by
    rintro ⟨j, v⟩ hx
    obtain ⟨w, hw, _⟩ := (hmem j v).1 hx
    exact ⟨w, hw⟩
  refine ⟨ms.map fun x => names.getD x.matchedWord [], ?_, ?_, by simp⟩
  · rw [show (ms.map fun x => names.getD x.matchedWord []) = (ms.map MatchData.matchedWord).map (fun j => names.getD j []) by
      rw [List.map_map]; rfl]
    refine List.Nodup.map_on ?_ hnd
    intro a ha b hb hab
    obtain ⟨x, hx, rfl⟩ := List.mem_map.1 ha
    obtain ⟨y, hy, rfl⟩ := List.mem_map.1 hb
    obtain ⟨w, hw⟩ := hin x hx
    obtain ⟨w', hw'⟩ := hin y hy
    simp only [List.getD_eq_getElem?_getD, hw, hw', Option.getD_some] at hab
    subst hab
    rw [← h.store.idx hw, ← h.store.idx hw']
  · intro w
    rw [List.mem_map]
    constructor
    · rintro ⟨⟨j, v⟩, hx', rfl⟩
      obtain ⟨w, hw, h1, h2, h3⟩ := (hmem j v).1 hx'
      simp only [List.getD_eq_getElem?_getD, hw, Option.getD_some]
      refine ⟨h1, _, isEditCost_iff.2 rfl, (seen_iff hs.nonNeg hx hq T w).1 h2⟩
    · rintro ⟨h1, v, h2, h3⟩
      rw [isEditCost_iff] at h2
      subst h2
      obtain ⟨d, hd⟩ := MatcherHistory.mem_occurrences.1 h1
      have hw := getElem?_idxOf (h.known w hd.word)
      refine ⟨⟨names.idxOf w, _⟩, (hmem _ _).2 ⟨w, hw, h1, (seen_iff hs.nonNeg hx hq T w).2 h3, rfl⟩, ?_⟩
      simp [hw]

theorem _root_.Columbus.MInv.key_name (h : MInv m H names) {k : WordID} (hk : k ∈ m.indexes.map (·.1)) :
    ∃ f, names[k]? = some f ∧ names.getD k [] = f ∧ H.occurrences f ≠ [] := by
  have hfind : HMap.find m.indexes k ≠ none := by
    rw [ne_eq, HMap.find_none_iff]; exact not_not.2 hk
  obtain ⟨ix, hix⟩ := Option.ne_none_iff_exists'.1 hfind
  obtain ⟨f, hf, hne, _⟩ := h.ixs k ix hix
  exact ⟨f, hf, by rw [List.getD_eq_getElem?_getD, hf]; rfl, hne⟩

/-- The names of the indexes in any order. -/
theorem _root_.Columbus.MInv.key_names (h : MInv m H names) {ks : List WordID} (hk : ks.Perm (m.indexes.map (·.1))) :
    (ks.map fun k => names.getD k []).Nodup ∧ ∀ f, (f ∈ ks.map fun k => names.getD k []) ↔ H.occurrences f ≠ [] := by
  constructor
  · refine List.Nodup.map_on ?_ (hk.nodup_iff.2 h.keys)
    intro a ha b hb hab
    obtain ⟨f, h1, h2, _⟩ := h.key_name (hk.mem_iff.1 ha)
    obtain ⟨f', h1', h2', _⟩ := h.key_name (hk.mem_iff.1 hb)
    rw [h2, h2'] at hab
    subst hab
    rw [← h.store.idx h1, ← h.store.idx h1']
  · intro f
    rw [List.mem_map]
    constructor
    · rintro ⟨k, hm, rfl⟩
      obtain ⟨f, _, h2, h3⟩ := h.key_name (hk.mem_iff.1 hm)
      rw [h2]; exact h3
    · intro hne
      obtain ⟨w, hw⟩ := List.exists_mem_of_ne_nil _ hne
      obtain ⟨d, hd⟩ := MatcherHistory.mem_occurrences.1 hw
      have hf := getElem?_idxOf (h.known f hd.field)
      have := h.has _ f hf hne
      rw [ne_eq, HMap.find_none_iff, not_not] at this
      exact ⟨names.idxOf f, hk.mem_iff.2 this, by simp [hf]⟩

end
end Verbose
end Columbus
