import Verif.Proofs.Pimpls
import Verif.Model.Documents
import Verif.Props.Example
/-
C65-C68: objects that own memory.
-/

namespace Columbus.Props
open Columbus Spec

/-! ### C65 -/

section
variable [Build] [Icu] {grant : Nat → Bool}

/-- C65, what holds: after any program of steps that have a rule, a valid step is defined, its outcome is the one of the
same step with values, and it fails for want of memory only if its request was refused. Missing from the full claim: a copy
assignment that is refused memory and the assignment of text with blanks, which leave an object that cannot be used
(`C65_refused`, `C65_blanks`). -/
theorem C65_partial {tr : List (WordOp × WordRet)} {s : Words} {σ : WordValues} (h : WordsRan grant tr s σ) (op : WordOp)
    (hv : op.Valid σ) (hassign : ∀ x y, op = .assign x y → grant s.mem.asked = true)
    (htext : ∀ x t, op = .assignText x t → Word.ofUtf8 t ≠ .error .invalidArgument) :
    ∃ s' r σ', s.run grant op = .ok (s', r) ∧ WordStep σ op r σ' ∧ WordsRan grant (tr ++ [(op, r)]) s' σ' ∧
      (grant s.mem.asked = true → r ≠ .badAlloc) := by
  obtain ⟨L, hr, _⟩ := Columbus.WordsRan.rep h
  rcases words_step (grant := grant) hr hv with ⟨s', r, σ', L', h1, h2, _⟩ | hz
  · exact ⟨s', r, σ', h1, h2, h.step hv h1 h2, fun hg e => by subst e; exact absurd (run_badAlloc hr hv h1) (by simp [hg])⟩
  · rcases hz with ⟨x, y, s', rfl, h1⟩ | ⟨x, t, s', rfl, h1, _⟩
    · exact absurd (run_badAlloc hr hv h1) (by simp [hassign x y rfl])
    · exact absurd h1 (htext x t rfl)

/-- C65. The step with values determines what the program sees: one outcome if memory is granted. -/
theorem C65_outcome {σ σ₁ σ₂ : WordValues} {op : WordOp} {r₁ r₂ : WordRet} (h₁ : WordStep σ op r₁ σ₁) (h₂ : WordStep σ op r₂ σ₂)
    (hr₁ : r₁ ≠ .badAlloc) (hr₂ : r₂ ≠ .badAlloc) : r₁ = r₂ ∧ σ₁ = σ₂ :=
  WordStep.outcome h₁ h₂ hr₁ hr₂

/-- C65. A refused copy assignment of a non-empty word to another non-empty word leaves the deleted array in the target:
the next read, copy or destruction is undefined. -/
theorem C65_refused {tr : List (WordOp × WordRet)} {s : Words} {σ : WordValues} (h : WordsRan grant tr s σ) {x y : Nat} (hxy : x ≠ y)
    {v w : List Letter} (hx : σ x = some v) (hy : σ y = some w) (hv : v ≠ []) (hw : w ≠ []) (hg : grant s.mem.asked = false) :
    ∃ s', s.run grant (.assign x y) = .ok (s', .badAlloc) ∧ s'.run grant (.destroy x) = .error .ub ∧
      s'.run grant (.letter x 0) = .error .ub := by
  obtain ⟨L, hr, _⟩ := Columbus.WordsRan.rep h
  exact assign_refused hr hxy hx hy hv hw hg

/-- C65. The assignment of text with blanks leaves a null pointer with a positive length. -/
theorem C65_blanks {tr : List (WordOp × WordRet)} {s : Words} {σ : WordValues} (h : WordsRan grant tr s σ) {x : Nat} {v : List Letter}
    (hx : σ x = some v) {t : Bytes} (ht : Word.ofUtf8 t = .error .invalidArgument) (hg : grant s.mem.asked = true) :
    ∃ s', s.run grant (.assignText x t) = .ok (s', .threw .invalidArgument) ∧ s'.run grant (.letter x 0) = .error .ub := by
  obtain ⟨L, hr, _⟩ := Columbus.WordsRan.rep h
  exact assignText_blanks hr hx ht hg

end

/-- C65 is false: two requests are granted and the third is refused. `Word a("x"), b("y"); try { a = b; } catch(...) {}` deletes the
array of `a` twice. -/
theorem C65_false : let _ := Example.debug; let _ := Example.icu
    ∃ s σ, WordsRan (fun n => decide (n < 2)) [(.text 0 [0x78], .done), (.text 1 [0x79], .done)] s σ ∧
      (WordOp.assign 0 1).Valid σ ∧ ∃ s', s.run (fun n => decide (n < 2)) (.assign 0 1) = .ok (s', .badAlloc) ∧
      s'.run (fun n => decide (n < 2)) (.destroy 0) = .error .ub := by
  intro _ _
  have ex : Word.ofUtf8 [0x78] = .ok [0x78#16] := by decide
  have ey : Word.ofUtf8 [0x79] = .ok [0x79#16] := by decide
  obtain ⟨s1, r1, σ1, h1, h2, h3, _⟩ := C65_partial (grant := fun n => decide (n < 2)) .start (.text 0 [0x78]) rfl (by simp) (by simp)
  have e1 : Words.run (fun n => decide (n < 2)) .start (.text 0 [0x78]) = .ok (⟨⟨[some [0x78#16, 0#16]], 1⟩,
      Vars.set (fun _ => none) 0 (some ⟨some 0, 1⟩)⟩, .done) := rfl
  rw [e1] at h1
  injection h1 with h1; injection h1 with h1 hr; subst h1 hr
  cases h2
  rename_i w hw
  rw [ex] at hw; injection hw with hw; subst hw
  obtain ⟨s2, r2, σ2, h4, h5, h6, _⟩ := C65_partial h3 (.text 1 [0x79]) rfl (by simp) (by simp)
  have e2 : Words.run (fun n => decide (n < 2)) ⟨⟨[some [0x78#16, 0#16]], 1⟩, Vars.set (fun _ => none) 0 (some ⟨some 0, 1⟩)⟩ (.text 1 [0x79]) =
      .ok (⟨⟨[some [0x78#16, 0#16], some [0x79#16, 0#16]], 2⟩,
      Vars.set (Vars.set (fun _ => none) 0 (some ⟨some 0, 1⟩)) 1 (some ⟨some 1, 1⟩)⟩, .done) := rfl
  rw [e2] at h4
  injection h4 with h4; injection h4 with h4 hr; subst h4 hr
  cases h5
  rename_i w hw
  rw [ey] at hw; injection hw with hw; subst hw
  refine ⟨_, _, h6, ⟨by simp [Vars.set], by simp [Vars.set]⟩, ?_⟩
  obtain ⟨s', h7, h8, _⟩ := C65_refused h6 (x := 0) (y := 1) (by simp) (v := [0x78#16]) (w := [0x79#16]) rfl rfl (by simp) (by simp) rfl
  exact ⟨s', h7, h8⟩

/-- A program with two words: the copy keeps its letters when the original is assigned to. -/
example : let _ := Example.debug; let _ := Example.icu
    ∃ tr s σ, WordsRan (fun _ => true) tr s σ ∧ σ 0 = some [0x79#16] ∧ σ 1 = some [0x78#16] ∧
      tr.map Prod.fst = [.text 0 [0x78], .copy 1 0, .assignText 0 [0x79]] := by
  intro _ _
  have ex : Word.ofUtf8 [0x78] = .ok [0x78#16] := by decide
  have ey : Word.ofUtf8 [0x79] = .ok [0x79#16] := by decide
  have h1 := WordsRan.step (grant := fun _ => true) .start (op := .text 0 [0x78]) rfl rfl (.text ex)
  have h2 := h1.step (op := .copy 1 0) ⟨rfl, by simp [Vars.set]⟩ rfl (.copy (w := [0x78#16]) rfl)
  have h3 := h2.step (op := .assignText 0 [0x79]) (by simp [WordOp.Valid, Vars.set]) rfl (.assignText ey)
  exact ⟨_, _, _, h3, rfl, rfl, rfl⟩

/-! ### C66 -/

section
variable [Build] [Icu] {grant : Nat → Bool}

/-- C66, what holds: the arrays in use are those of the words that live, each of them owned by one word, and one more for
every conversion of ill-formed text. Missing from the full claim: the arrays lost in these conversions, and the programs
with a step that has no rule (C65). -/
theorem C66_partial {tr : List (WordOp × WordRet)} {s : Words} {σ : WordValues} (h : WordsRan grant tr s σ) :
    ∃ L : List Nat, L.Nodup ∧ L.length = (tr.filter Failed).length ∧
      (∀ a, s.mem.Live a ↔ a ∈ L ∨ ∃ x o, s.objs x = some o ∧ o.text = some a) ∧
      (∀ x o a, s.objs x = some o → o.text = some a → a ∉ L) ∧
      (∀ x y o o' a, s.objs x = some o → s.objs y = some o' → o.text = some a → o'.text = some a → x = y) := by
  obtain ⟨L, hr, hl⟩ := Columbus.WordsRan.rep h
  refine ⟨L, hr.nodup, hl, fun a => ⟨hr.owned a, ?_⟩, hr.free, hr.apart⟩
  rintro (ha | ⟨x, o, hx, ho⟩)
  · exact hr.lost a ha
  · cases hσ : σ x with
    | none => rw [hr.dead x hσ] at hx; cases hx
    | some w =>
      obtain ⟨o', h1, h2⟩ := hr.alive x w hσ
      rw [hx] at h1; injection h1 with h1; subst h1
      exact ⟨_, h2.live ho⟩

/-- C66. Without such conversions nothing is in use once all words are destroyed. -/
theorem C66_clean_partial {tr : List (WordOp × WordRet)} {s : Words} {σ : WordValues} (h : WordsRan grant tr s σ)
    (htr : ∀ x ∈ tr, Failed x = false) (hσ : ∀ x, σ x = none) (a : Nat) : ¬ s.mem.Live a := by
  obtain ⟨L, hr, hl⟩ := Columbus.WordsRan.rep h
  intro ha
  rcases hr.owned a ha with h' | ⟨x, o, hx, _⟩
  · rw [List.filter_eq_nil_iff.2 (by intro x hx; simp [htr x hx])] at hl
    rw [List.eq_nil_of_length_eq_zero hl] at h'; cases h'
  · rw [hr.dead x (hσ x)] at hx; cases hx

/-- C66. Every conversion of ill-formed text in a constructor loses one array, for good: it stays in use whatever the
program does afterwards. -/
theorem C66_leak {tr : List (WordOp × WordRet)} {s : Words} {σ : WordValues} (h : WordsRan grant tr s σ) {x : Nat} {t : Bytes}
    (htr : (WordOp.text x t, WordRet.threw .runtimeError) ∈ tr) : ∃ a, s.mem.Live a := by
  obtain ⟨L, hr, hl⟩ := Columbus.WordsRan.rep h
  have : 0 < L.length := by
    rw [hl]; exact List.length_pos_of_mem (List.mem_filter.2 ⟨htr, rfl⟩)
  obtain ⟨a, ha⟩ := List.exists_mem_of_length_pos this
  exact ⟨a, hr.lost a ha⟩

end

/-- C66 is false: `Word w("\xff")` throws and its array remains, though there is no object. -/
theorem C66_false : let _ := Example.debug; let _ := Example.icu
    ∃ tr s σ, WordsRan (fun _ => true) tr s σ ∧ (∀ x, σ x = none) ∧ ∃ a, s.mem.Live a := by
  intro _ _
  have ex : Word.ofUtf8 [0xff] = .error .runtimeError := by decide
  have h1 := WordsRan.step (grant := fun _ => true) .start (op := .text 0 [0xff]) rfl rfl (.textBad ex)
  exact ⟨_, _, _, h1, fun _ => rfl, 0, [], rfl⟩

/-- A program that makes, copies, moves and destroys words and leaves nothing behind. -/
example : let _ := Example.debug; let _ := Example.icu
    ∃ tr s σ, WordsRan (fun _ => true) tr s σ ∧ (∀ x ∈ tr, Failed x = false) ∧ (∀ x, σ x = none) ∧ tr.length = 6 ∧
      s.mem.cells.length = 2 := by
  intro _ _
  have ex : Word.ofUtf8 [0x78] = .ok [0x78#16] := by decide
  have h1 := WordsRan.step (grant := fun _ => true) .start (op := .text 0 [0x78]) rfl rfl (.text ex)
  have h2 := h1.step (op := .copy 1 0) ⟨rfl, by simp [Vars.set]⟩ rfl (.copy (w := [0x78#16]) rfl)
  have h3 := h2.step (op := .move 2 1) ⟨rfl, by simp [Vars.set]⟩ rfl (.move (w := [0x78#16]) rfl)
  have h4 := h3.step (op := .destroy 0) (by simp [WordOp.Valid, Vars.set]) rfl .destroy
  have h5 := h4.step (op := .destroy 1) (by simp [WordOp.Valid, Vars.set]) rfl .destroy
  have h6 := h5.step (op := .destroy 2) (by simp [WordOp.Valid, Vars.set]) rfl .destroy
  refine ⟨_, _, _, h6, ?_, ?_, rfl, rfl⟩
  · simp [Failed]
  · intro x; simp only [Vars.set]; repeat' split
    all_goals rfl

/-! ### C67 -/

section
variable {V R : Type}

/-- C67. After any program of valid steps a valid step is defined and its outcome is the one of the same step with
values. -/
theorem C67_values {s : Pimpls V} {σ : PimplValues V} (h : PimplsRan (R := R) Pimpls.run (fun _ => True) s σ) (op : PimplOp V R)
    (hv : op.Valid σ) : ∃ s' r σ', s.run op = .ok (s', r) ∧ PimplStep σ op r σ' ∧ PimplsRan (R := R) Pimpls.run (fun _ => True) s' σ' := by
  obtain ⟨s', r, σ', h1, h2, _⟩ := pimpls_step (Columbus.PimplsRan.rep (fun _ _ _ => rfl) h) hv
  exact ⟨s', r, σ', h1, h2, h.step hv trivial h1 h2⟩

/-- C67. The step with values has one outcome. -/
theorem C67_outcome {σ σ₁ σ₂ : PimplValues V} {op : PimplOp V R} {r₁ r₂ : Option R} (h₁ : PimplStep σ op r₁ σ₁)
    (h₂ : PimplStep σ op r₂ σ₂) : r₁ = r₂ ∧ σ₁ = σ₂ := Columbus.PimplStep.det h₁ h₂

/-- C67. The private parts in use are those of the objects that live, each owned by one object: nothing leaks. -/
theorem C67_clean {s : Pimpls V} {σ : PimplValues V} (h : PimplsRan (R := R) Pimpls.run (fun _ => True) s σ) :
    (∀ a, s.mem.Live a ↔ ∃ x, s.objs x = some (some a)) ∧ (∀ x y a, s.objs x = some (some a) → s.objs y = some (some a) → x = y) ∧
    ((∀ x, σ x = none) → ∀ a, ¬ s.mem.Live a) := by
  have hr := Columbus.PimplsRan.rep (fun _ _ _ => rfl) h
  refine ⟨fun a => ⟨hr.owned a, ?_⟩, hr.apart, ?_⟩
  · rintro ⟨x, hx⟩; obtain ⟨v, _, hv⟩ := hr.live hx; exact ⟨v, hv⟩
  · intro hσ a ha
    obtain ⟨x, hx⟩ := hr.owned a ha
    rw [hr.dead x (hσ x)] at hx; cases hx

/-- C67. The rules are needed: an object that was moved from cannot be copied, copied to or asked anything. -/
theorem C67_moved {s : Pimpls V} {σ : PimplValues V} (h : PimplsRan (R := R) Pimpls.run (fun _ => True) s σ) {x y : Nat} (hx : σ x = some none) :
    (∀ f, s.run (.call (R := R) x f) = .error .ub) ∧ s.run (.copy (R := R) y x) = .error .ub ∧
    (x ≠ y → σ y ≠ none → s.run (.assign (R := R) x y) = .error .ub) := by
  have hr := Columbus.PimplsRan.rep (fun _ _ _ => rfl) h
  obtain ⟨p, hp, rfl⟩ := hr.alive x none hx
  refine ⟨?_, ?_, ?_⟩
  · intro f; simp [Pimpls.run, Pimpls.obj, hp, Memory.load]
  · simp [Pimpls.run, Pimpls.obj, hp, Memory.load]
  · intro hxy hy
    obtain ⟨c, hc⟩ := Option.ne_none_iff_exists'.1 hy
    obtain ⟨q, hq, hpt⟩ := hr.alive y c hc
    cases hl : s.mem.load q with
    | error f =>
      cases c with
      | none => cases (hpt : q = none); simp [Pimpls.run, Pimpls.obj, hp, hq, hxy, Memory.load]
      | some v => obtain ⟨a, rfl, ha⟩ := hpt; rw [Memory.load_of ha] at hl; cases hl
    | ok v => simp [Pimpls.run, Pimpls.obj, hp, hq, hxy, hl, Memory.store]

end

/-- C67. `r.addResults(r)` appends a vector to itself by iterators, which is undefined whatever `r` holds. -/
theorem C67_self {s : Pimpls MatchResults} {x : Nat} :
    s.run (.callWith x x false fun r r' => (r.addResults r', ())) = .error .ub := by
  cases h : s.objs x <;> simp [Pimpls.run, Pimpls.obj, h]

/-- Two results, one a copy of the other: adding to the copy leaves the original as it was. -/
example : ∃ s σ, PimplsRan (V := MatchResults) (R := Unit) Pimpls.run (fun _ => True) s σ ∧
    σ 0 = some (some MatchResults.new) ∧ σ 1 = some (some (MatchResults.new.addResult 7 1)) ∧ σ 2 = none := by
  have h1 := PimplsRan.step (step := Pimpls.run (V := MatchResults) (R := Unit)) (allowed := fun _ => True) .start (op := .make 0 .new) rfl trivial rfl .make
  have h2 := h1.step (op := .copy 1 0) ⟨rfl, _, rfl⟩ trivial rfl (.copy rfl)
  have h3 := h2.step (op := .call 1 fun r => (r.addResult 7 1, ())) ⟨_, rfl⟩ trivial rfl (.call rfl)
  exact ⟨_, _, h3, rfl, rfl, rfl⟩

/-! ### C68 -/

section
variable {V R : Type}

/-- C68, what holds: as long as a program neither copies nor moves such an object, every valid step is defined, has the
outcome of the same step with values, and nothing leaks. Missing from the full claim: copies (`C68_false`). -/
theorem C68_partial {s : Pimpls V} {σ : PimplValues V} (h : PimplsRan (R := R) Pimpls.runShallow PimplOp.NoCopy s σ) (op : PimplOp V R)
    (hv : op.Valid σ) (hn : op.NoCopy) :
    (∃ s' r σ', s.runShallow op = .ok (s', r) ∧ PimplStep σ op r σ' ∧ PimplsRan (R := R) Pimpls.runShallow PimplOp.NoCopy s' σ') ∧
    ((∀ x, σ x = none) → ∀ a, ¬ s.mem.Live a) := by
  have hr := Columbus.PimplsRan.rep (fun s op hop => runShallow_noCopy s op hop) h
  refine ⟨?_, ?_⟩
  · obtain ⟨s', r, σ', h1, h2, _⟩ := pimpls_step hr hv
    rw [← runShallow_noCopy s op hn] at h1
    exact ⟨s', r, σ', h1, h2, h.step hv hn h1 h2⟩
  · intro hσ a ha
    obtain ⟨x, hx⟩ := hr.owned a ha
    rw [hr.dead x (hσ x)] at hx; cases hx

/-- C68. Copying an object and destroying both deletes one private part twice, in every program without other copies; so
does the use of one after the other is destroyed. -/
theorem C68_copy {s : Pimpls V} {σ : PimplValues V} (h : PimplsRan (R := R) Pimpls.runShallow PimplOp.NoCopy s σ) {x y : Nat} {v : V}
    (hx : σ x = some (some v)) (hy : σ y = none) :
    ∃ s₁ s₂, s.runShallow (.copy (R := R) y x) = .ok (s₁, none) ∧ s₁.runShallow (.destroy (R := R) x) = .ok (s₂, none) ∧
      s₂.runShallow (.destroy (R := R) y) = .error .ub ∧ ∀ f, s₂.runShallow (.call (R := R) y f) = .error .ub := by
  have hr := Columbus.PimplsRan.rep (fun s op hop => runShallow_noCopy s op hop) h
  obtain ⟨p, hp, a, rfl, ha⟩ := hr.alive x _ hx
  have hxy : x ≠ y := by rintro rfl; rw [hx] at hy; cases hy
  have hlt := cells_lt ha
  refine ⟨⟨s.mem, s.objs.set y (some (some a))⟩, ⟨⟨s.mem.cells.set a none, s.mem.asked⟩, (s.objs.set y (some (some a))).set x none⟩, ?_, ?_, ?_, ?_⟩
  · simp [Pimpls.runShallow, Pimpls.obj, hp]
  · simp [Pimpls.runShallow, Pimpls.run, Pimpls.obj, Vars.set_other _ _ hxy, hp, Memory.free_of ha]
  · simp [Pimpls.runShallow, Pimpls.run, Pimpls.obj, Vars.set, Ne.symm hxy, Memory.free, hlt]
  · intro f
    simp [Pimpls.runShallow, Pimpls.run, Pimpls.obj, Vars.set, Ne.symm hxy, Memory.load, hlt]

end

/-- C68 is false: `SearchParameters a; { SearchParameters b(a); } a.isDynamic()` is undefined, and so is the end of `a`. -/
theorem C68_false : ∃ s σ, PimplsRan (V := SearchParameters) (R := Unit) Pimpls.runShallow PimplOp.NoCopy s σ ∧
    σ 0 = some (some SearchParameters.new) ∧
    ∃ s₁ s₂, s.runShallow (.copy (R := Unit) 1 0) = .ok (s₁, none) ∧ s₁.runShallow (.destroy (R := Unit) 1) = .ok (s₂, none) ∧
      s₂.runShallow (.destroy (R := Unit) 0) = .error .ub := by
  have h1 := PimplsRan.step (step := Pimpls.runShallow (V := SearchParameters) (R := Unit)) (allowed := PimplOp.NoCopy) .start
    (op := .make 0 .new) rfl trivial rfl .make
  exact ⟨_, _, h1, rfl, _, _, rfl, rfl, rfl⟩

end Columbus.Props
