import Verif.Proofs.QueryIndex
import Verif.Props.Levenshtein
import Verif.Props.Word
/-
Lemmas about a whole run of tools/queryindex.cc, from the properties of the library.
-/

namespace Columbus
open Columbus.Spec

namespace QueryIndex

/-! ### Texts of words -/

/-- The text of a word. -/
def TextOf (w : Word) (t : Bytes) : Prop := ∃ cps, Utf16 w cps ∧ Utf8 t cps

theorem TextOf.det {w w' : Word} {t : Bytes} (h : TextOf w t) (h' : TextOf w' t) : w = w' := by
  obtain ⟨c, h1, h2⟩ := h
  obtain ⟨c', h1', h2'⟩ := h'
  have := Utf8.det h2 h2'
  subst this
  rw [Utf16.eq_encodes h1, Utf16.eq_encodes h1']

theorem TextOf.same {w : Word} {t t' : Bytes} (h : TextOf w t) (h' : TextOf w t') : t = t' := by
  obtain ⟨c, h1, h2⟩ := h
  obtain ⟨c', h1', h2'⟩ := h'
  have := Utf16.det h1 h1'
  subst this
  rw [Utf8.eq_encodes h2, Utf8.eq_encodes h2']

theorem GoodWord.text {w : Word} (h : GoodWord w) : ∃ t, TextOf w t ∧ 0 ∉ t := by
  obtain ⟨c, hc⟩ := h.wellFormed
  have hu := utf8_encodes (Utf16.scalar hc)
  refine ⟨_, ⟨c, hc, hu⟩, ?_⟩
  intro h0
  have e1 := (utf8_small hu (fun x => x = 0) (by rintro _ rfl; omega)).1 ⟨0, h0, rfl⟩
  obtain ⟨l, hl, hl0⟩ := (utf16_small hc (fun x => x = 0) (by rintro _ rfl; omega)).2 e1
  exact h.noNul l hl (BitVec.eq_of_toNat_eq hl0)

theorem lowerLetters_iff [Build] [Icu] {l : Bytes} (hb : ∀ b ∈ l, ¬ IsBlank b) (w : Word) :
    LowerLetters l w ↔ Word.ofUtf8 l = .ok w := by
  rw [ofUtf8_ok_iff]
  constructor
  · rintro ⟨c, h1, h2⟩
    refine ⟨hb, c, h1, ?_⟩
    rw [Utf16.eq_encodes h2, Utf16.eq_encodes (lettersOf_lowerCp h1)]
  · rintro ⟨_, c, h1, rfl⟩
    exact ⟨c, h1, lettersOf_lowerCp h1⟩

theorem lowerText_iff [Icu] {l t : Bytes} {w : Word} (hw : LowerLetters l w) : LowerText l t ↔ TextOf w t := by
  obtain ⟨c, h1, h2⟩ := hw
  constructor
  · rintro ⟨c', h1', h2'⟩
    have := Utf8.det h1 h1'
    subst this
    exact ⟨_, h2, h2'⟩
  · rintro ⟨c', h1', h2'⟩
    have := Utf16.det h2 h1'
    subst this
    exact ⟨c, h1, h2'⟩

theorem ofUtf8_length [Build] [Icu] {l : Bytes} {w : Word} (h : Word.ofUtf8 l = .ok w) : w.length ≤ l.length := by
  obtain ⟨_, c, h1, rfl⟩ := (ofUtf8_ok_iff l w).1 h
  rw [lettersOf, List.length_map]
  exact utf16_len_le h1

/-! ### Printing -/

/-- How printing the matches ends. -/
def ending : List (Bytes × Int) → List Printed × Option Fault
  | [] => ([], none)
  | p :: r => if p.1.length < 1024 then (.hit p.1 p.2 :: (ending r).1, (ending r).2)
    else ([], some (if p.1.length = 1024 then .ub else .runtimeError))

theorem ending_fits {hits : List (Bytes × Int)} (h : ∀ p ∈ hits, p.1.length < 1024) : ending hits = (shown hits, none) := by
  induction hits with
  | nil => rfl
  | cons p r ih =>
    rw [ending, if_pos (h p (by simp)), ih (fun x hx => h x (by simp [hx]))]
    rfl

theorem ending_stops {pre post : List (Bytes × Int)} {p : Bytes × Int} (h : ∀ p ∈ pre, p.1.length < 1024)
    (hp : 1024 ≤ p.1.length) :
    ending (pre ++ p :: post) = (shown pre, some (if p.1.length = 1024 then .ub else .runtimeError)) := by
  induction pre with
  | nil => rw [List.nil_append, ending, if_neg (by omega)]; rfl
  | cons x r ih =>
    rw [List.cons_append, ending, if_pos (h x (by simp)), ih (fun y hy => h y (by simp [hy]))]
    rfl

/-- What is printed for a match. -/
def Prints [Build] (s : WordStore) (m : MatchData) (p : Bytes × Int) : Prop :=
  ∃ w, s.getWord m.matchedWord = .ok w ∧ TextOf w p.1 ∧ 0 ∉ p.1 ∧ p.2 = m.error

theorem printLoop_eq [Build] {s : WordStore} {ms : IndexMatches} : ∀ (xs : List MatchData) (hits : List (Bytes × Int))
    (pre : List MatchData), ms = pre ++ xs → List.Forall₂ (Prints s) xs hits →
    printLoop s ms (List.range' pre.length xs.length) = ending hits := by
  intro xs
  induction xs with
  | nil =>
    intro hits pre _ hf
    cases hf; rfl
  | cons m xs ih =>
    intro hits pre hm hf
    cases hf with
    | @cons _ p _ hits hp hf =>
    obtain ⟨w, h1, ⟨c, h2, h3⟩, h4, h5⟩ := hp
    have hget : ms[pre.length]? = some m := by rw [hm]; simp
    have e1 : ms.getMatch pre.length = .ok m.matchedWord := by rw [IndexMatches.getMatch, hget]
    have e2 : ms.getMatchError pre.length = .ok m.error := by rw [IndexMatches.getMatchError, hget]
    have ihr := ih hits (pre ++ [m]) (by rw [hm]; simp) hf
    rw [List.length_append, List.length_singleton] at ihr
    obtain ⟨t1, t2, t3⟩ := Props.C05_partial w c p.1 h2 h3 1024
    rw [List.length_cons, List.range'_succ, printLoop, e1, ok_bind, h1, ok_bind, ending]
    by_cases hlt : p.1.length < 1024
    · rw [if_pos hlt, t1 hlt, ok_bind, e2, ok_bind, ihr, text_of h4, h5]
    · rw [if_neg hlt]
      by_cases heq : p.1.length = 1024
      · rw [if_pos heq, t3.1 heq.symm]; rfl
      · rw [if_neg heq, t2 (by omega)]; rfl

/-- The search and the texts of the words found. -/
theorem search_hits [Build] [Icu] [Runtime] {osI osS : Nat → Bool} {ws names : List Word} {ind : LevIndex}
    {s : WordStore} (h : Loaded osI osS ws names ind s) {q : Word} (hq : ∀ l ∈ q, l ≠ 0#16)
    (hlen : ∀ w ∈ ws, w.length + q.length ≤ 21000000) (hq2 : q.length ≤ 21000000) (T : Int) :
    ∃ (ms : IndexMatches) (hits : List (Bytes × Int)),
      ind.findWords q ErrorValues.new T IndexMatches.new = .ok ms ∧ List.Forall₂ (Prints s) ms hits ∧
      hits.Pairwise (fun a b => a.2 ≤ b.2) ∧ (hits.map Prod.fst).Nodup ∧
      ∀ t v, (t, v) ∈ hits ↔ ∃ w ∈ ws, TextOf w t ∧ ∃ n : Nat, IsEditDistance q w n ∧ v = 100 * n ∧ v ≤ T := by
  have hok : IndexHistory.Ok (history names ws) := history_ok h.store (fun v hv => (h.mem v).2 hv)
  have hlen' : ∀ p ∈ history names ws, p.1.length + q.length ≤ 21000000 := by
    intro p hp
    obtain ⟨w, hw, rfl⟩ := List.mem_map.1 hp
    exact hlen w hw
  have hmod : Moderate (configured (afterOps []) q.length) q (history names ws) := by
    refine ⟨100, 21000000 - q.length, ?_, ?_, by omega⟩
    · rw [configured_default]; exact unit_within
    · intro p hp
      have := hlen' p hp
      omega
  obtain ⟨ms, he⟩ := Props.C25_default osI _ ind hok h.done false q hq hlen' hq2 T []
  replace he : ind.findWords q (afterOps []) T [] = .ok ms := he
  obtain ⟨hsort, add1, hp1, hnd, _⟩ := Props.C21_sorted_distinct osI _ ind hok h.done _ q T [] ms he
  obtain ⟨add2, hp2, hmem⟩ := Props.C26_distance osI _ ind hok h.done q hq hmod T [] ms he
  rw [List.nil_append] at hp1 hp2
  have hms : ∀ m, m ∈ ms ↔ ∃ w, w ∈ ws ∧ names[m.matchedWord]? = some w ∧
      ∃ n : Nat, IsEditDistance q w n ∧ m.error = 100 * n ∧ m.error ≤ T := by
    intro m
    rw [hp2.mem_iff, hmem]
    constructor
    · rintro ⟨w, n, ⟨_, hw⟩, hd, hv, hT⟩
      obtain ⟨w', hw', he'⟩ := List.mem_map.1 hw
      simp only [Prod.mk.injEq] at he'
      obtain ⟨rfl, he'⟩ := he'
      refine ⟨w', hw', ?_, n, hd, hv, by rw [hv]; exact hT⟩
      rw [← he']; exact getElem?_idxOf ((h.mem w').2 hw')
    · rintro ⟨w, hw, hi, n, hd, hv, hT⟩
      refine ⟨w, n, ⟨(h.store.good w ((h.mem w).2 hw)).nonempty, ?_⟩, hd, hv, by rw [← hv]; exact hT⟩
      exact List.mem_map.2 ⟨w, hw, by rw [h.store.idx hi]⟩
  have hnd' : (ms.map MatchData.matchedWord).Nodup := (hp1.map _).nodup_iff.2 hnd
  -- the texts
  have hex : ∀ m ∈ ms, ∃ p : Bytes × Int, Prints s m p := by
    intro m hm
    obtain ⟨w, hw, hi, _⟩ := (hms m).1 hm
    obtain ⟨t, ht, h0⟩ := GoodWord.text (h.store.good w ((h.mem w).2 hw))
    exact ⟨(t, m.error), w, h.store.getWord hi, ht, h0, rfl⟩
  obtain ⟨hits, hf⟩ : ∃ hits, List.Forall₂ (Prints s) ms hits := by
    clear he hsort hp1 hp2 hms hnd'
    induction ms with
    | nil => exact ⟨[], .nil⟩
    | cons m ms ih =>
      obtain ⟨p, hp⟩ := hex m (by simp)
      obtain ⟨r, hr⟩ := ih (fun m hm => hex m (by simp [hm]))
      exact ⟨p :: r, .cons hp hr⟩
  have key : ∀ m ∈ ms, ∀ p, Prints s m p → ∃ w, w ∈ ws ∧ names[m.matchedWord]? = some w ∧ TextOf w p.1 := by
    intro m hm p hp
    obtain ⟨w, hw, hi, _⟩ := (hms m).1 hm
    obtain ⟨w', hg, ht, _, _⟩ := hp
    rw [h.store.getWord hi] at hg
    injection hg with hg
    subst hg
    exact ⟨w, hw, hi, ht⟩
  refine ⟨ms, hits, he, hf, ?_, ?_, ?_⟩
  · clear he hp1 hp2 hms hnd' hex key
    induction hf with
    | nil => exact .nil
    | @cons m p ms hits hp hf ih =>
      rw [List.pairwise_cons] at hsort ⊢
      refine ⟨?_, ih hsort.2⟩
      intro p' hp'
      obtain ⟨m', hm', hpp⟩ : ∃ m' ∈ ms, Prints s m' p' := by
        obtain ⟨i, hi, rfl⟩ := List.getElem_of_mem hp'
        have := (List.forall₂_iff_get.1 hf)
        exact ⟨ms[i]'(by rw [this.1]; exact hi), List.getElem_mem _, this.2 i _ hi⟩
      obtain ⟨_, _, _, _, e1⟩ := hp
      obtain ⟨_, _, _, _, e2⟩ := hpp
      rw [e1, e2]
      exact hsort.1 m' hm'
  · clear he hp1 hp2 hsort hex
    replace hms := key
    clear key
    induction hf with
    | nil => exact .nil
    | @cons m p ms hits hp hf ih =>
      rw [List.map_cons, List.nodup_cons] at hnd' ⊢
      refine ⟨?_, ih hnd'.2 (fun m hm => hms m (by simp [hm]))⟩
      intro hc
      obtain ⟨p', hp', he⟩ := List.mem_map.1 hc
      obtain ⟨m', hm', hpp⟩ : ∃ m' ∈ ms, Prints s m' p' := by
        obtain ⟨i, hi, rfl⟩ := List.getElem_of_mem hp'
        have := (List.forall₂_iff_get.1 hf)
        exact ⟨ms[i]'(by rw [this.1]; exact hi), List.getElem_mem _, this.2 i _ hi⟩
      obtain ⟨w, _, hi, ht⟩ := hms m (by simp) p hp
      obtain ⟨w', _, hi', ht'⟩ := hms m' (by simp [hm']) p' hpp
      rw [he] at ht'
      have := ht.det ht'
      subst this
      apply hnd'.1
      have e1 := h.store.idx hi
      rw [h.store.idx hi'] at e1
      rw [← e1]
      exact List.mem_map.2 ⟨m', hm', rfl⟩
  · intro t v
    constructor
    · intro hm
      obtain ⟨i, hi, he2⟩ := List.getElem_of_mem hm
      have hfi := (List.forall₂_iff_get.1 hf)
      have hi' : i < ms.length := by rw [hfi.1]; exact hi
      have hp := hfi.2 i hi' hi
      simp only [List.get_eq_getElem] at hp
      rw [he2] at hp
      obtain ⟨w, hw, hx, ht⟩ := key _ (List.getElem_mem hi') _ hp
      obtain ⟨w', hw', hx', n, hd, hv, hT⟩ := (hms _).1 (List.getElem_mem hi')
      rw [hx] at hx'
      injection hx' with hx'
      subst hx'
      obtain ⟨_, _, _, _, e5⟩ := hp
      dsimp only at e5 ht
      exact ⟨w, hw, ht, n, hd, by rw [e5]; exact hv, by rw [e5]; exact hT⟩
    · rintro ⟨w, hw, ht, n, hd, hv, hT⟩
      have hm : (⟨names.idxOf w, v⟩ : MatchData) ∈ ms :=
        (hms _).2 ⟨w, hw, getElem?_idxOf ((h.mem w).2 hw), n, hd, hv, hT⟩
      obtain ⟨i, hi, he2⟩ := List.getElem_of_mem hm
      have hfi := (List.forall₂_iff_get.1 hf)
      have hi' : i < hits.length := by rw [← hfi.1]; exact hi
      have hp := hfi.2 i hi hi'
      simp only [List.get_eq_getElem] at hp
      rw [he2] at hp
      obtain ⟨w', _, hx, ht'⟩ := key _ hm _ hp
      rw [getElem?_idxOf ((h.mem w).2 hw)] at hx
      injection hx with hx
      subst hx
      obtain ⟨_, _, _, _, e5⟩ := hp
      have := ht.same ht'
      rw [this, show v = hits[i].2 from e5.symm]
      exact List.getElem_mem hi'

/-- The search and what it prints. -/
theorem queryAndPrint_eq [Build] [Icu] [Runtime] {osI osS : Nat → Bool} {ws names : List Word} {ind : LevIndex}
    {s : WordStore} (h : Loaded osI osS ws names ind s) {q : Word} (hq : ∀ l ∈ q, l ≠ 0#16)
    (hlen : ∀ w ∈ ws, w.length + q.length ≤ 21000000) (hq2 : q.length ≤ 21000000) (T : Int) :
    ∃ hits : List (Bytes × Int),
      queryAndPrint ind s q T = (if hits = [] then ([.noMatches], none) else ending hits) ∧
      hits.Pairwise (fun a b => a.2 ≤ b.2) ∧ (hits.map Prod.fst).Nodup ∧
      ∀ t v, (t, v) ∈ hits ↔ ∃ w ∈ ws, TextOf w t ∧ ∃ n : Nat, IsEditDistance q w n ∧ v = 100 * n ∧ v ≤ T := by
  obtain ⟨ms, hits, he, hf, h1, h2, h3⟩ := search_hits h hq hlen hq2 T
  refine ⟨hits, ?_, h1, h2, h3⟩
  unfold queryAndPrint
  rw [he]
  dsimp only
  have hl := hf.length_eq
  by_cases hz : hits = []
  · rw [if_pos hz, if_pos (by rw [IndexMatches.size, hl, hz]; rfl)]
  · have : ms.size ≠ 0 := by
      rw [IndexMatches.size, hl]
      exact fun h => hz (List.length_eq_zero_iff.1 h)
    rw [if_neg hz, if_neg this, List.range_eq_range']
    exact printLoop_eq ms hits [] rfl hf

/-! ### A whole run -/

/-- The end of the process after loading. -/
def finish [Build] [Icu] [Runtime] (wq : Word) (T : Int) (loaded : M (LevIndex × WordStore)) : M Ended :=
  match (match loaded with
    | .error .invalidArgument => .ok ⟨[.malformed], 1⟩
    | .error f => .error f
    | .ok (ind, s) =>
      match queryAndPrint ind s wq T with
      | (out, none) => .ok ⟨out, 0⟩
      | (out, some f) => if thrown f then .ok ⟨out, 99⟩ else .error f : M Ended) with
  | .ok r => .ok r
  | .error f => if thrown f then .ok ⟨[.failed], 105⟩ else .error f

/-- The words of good lines. -/
theorem words_of [Build] [Icu] : ∀ ls : List Bytes, (∀ l ∈ ls, WordLine l) →
    ∃ ws, List.Forall₂ (fun l w => Word.ofUtf8 l = .ok w) ls ws := by
  intro ls
  induction ls with
  | nil => intro _; exact ⟨[], .nil⟩
  | cons l ls ih =>
    intro h
    obtain ⟨w, hw⟩ := (Props.C01_accepts l).2 ⟨(h l (by simp)).wellFormed, (h l (by simp)).noBlank⟩
    obtain ⟨ws, hws⟩ := ih fun l hl => h l (by simp [hl])
    exact ⟨w :: ws, .cons hw hws⟩

theorem letters_of [Build] [Icu] {ls : List Bytes} {ws : List Word}
    (h : List.Forall₂ (fun l w => Word.ofUtf8 l = .ok w) ls ws) : lettersIn ws ≤ (fileOf ls).length := by
  induction h with
  | nil => exact Nat.zero_le _
  | @cons l w ls ws h hf ih =>
    have := ofUtf8_length h
    rw [lettersIn_cons, fileOf_cons, List.length_append, List.length_cons]
    omega

/-- What the tool does with its arguments when the dictionary file starts with good lines: storage is refused, or the words
are loaded and the rest of the file is read. -/
theorem main_lines [Build] [Icu] [Runtime] (osI osS : Nat → Bool) (files : Bytes → Option Bytes) (name file q m : Bytes)
    (more : List Bytes) (ls : List Bytes) (r : Bytes) (T : Int) (wq : Word) (hf : files file = some (fileOf ls ++ r))
    (hl : ∀ l ∈ ls, WordLine l ∧ l.length ≤ 1022) (hq : Word.ofUtf8 q = .ok wq) (hT : Limit m T) :
    (main osI osS files (name :: file :: q :: m :: more) = .ok ⟨[.failed], 105⟩ ∧
      Refused osI osS (fileOf ls).length) ∨
    ∃ ws names ind s fuel, List.Forall₂ (fun l w => Word.ofUtf8 l = .ok w) ls ws ∧ Loaded osI osS ws names ind s ∧
      r.length ≤ fuel ∧
      main osI osS files (name :: file :: q :: m :: more) =
        finish wq T (loadLoop fuel r ind s) := by
  have hT' := (atoi_iff m T).2 hT
  rcases Loaded.new osI osS with ⟨e, hr⟩ | ⟨ind, e1, ⟨e2, hr⟩ | ⟨s, e2, h0⟩⟩
  · left
    refine ⟨?_, Or.inl (Or.inl ⟨_, hr⟩)⟩
    rw [QueryIndex.main, runTest, e]; rfl
  · left
    refine ⟨?_, Or.inr (Or.inl ⟨_, hr⟩)⟩
    rw [QueryIndex.main, runTest, e1, ok_bind, e2]; rfl
  · obtain ⟨ws, hws⟩ := words_of ls fun l hl' => (hl l hl').1
    have hle := letters_of hws
    have hlen : ls.length ≤ (fileOf ls).length := by
      clear hf hl hws hle
      induction ls with
      | nil => exact Nat.zero_le _
      | cons l ls ih => rw [fileOf_cons, List.length_append, List.length_cons, List.length_cons]; omega
    have hfu : (fileOf ls ++ r).length = ((fileOf ls).length - ls.length + r.length) + ls.length := by
      rw [List.length_append]; omega
    have hrun : main osI osS files (name :: file :: q :: m :: more) =
        finish wq T (loadLoop ((fileOf ls).length - ls.length + r.length + ls.length) (fileOf ls ++ r) ind s) := by
      rw [QueryIndex.main, runTest, e1, ok_bind, e2, ok_bind]
      simp only [hq, hT', ok_bind, hf, loadData, hfu]
      rfl
    rcases Loaded.lines ls [] [] ind s ws r ((fileOf ls).length - ls.length + r.length) h0 hl hws with
      ⟨e3, hr⟩ | ⟨ind', s', names', e3, h'⟩
    · left
      rw [List.nil_append] at hr
      refine ⟨?_, hr.imp (fun h => h.mono hle) (fun h => h.mono hle)⟩
      rw [hrun, e3]; rfl
    · right
      rw [List.nil_append] at h'
      exact ⟨ws, names', ind', s', (fileOf ls).length - ls.length + r.length, hws, h', by omega, by rw [hrun, e3]⟩

theorem main_congr [Build] [Icu] [Runtime] {osI osS : Nat → Bool} {files files' : Bytes → Option Bytes}
    {name file q m : Bytes} {more : List Bytes} {a b : Bytes} {T : Int} {wq : Word} (hf : files file = some a)
    (hf' : files' file = some b) (hq : Word.ofUtf8 q = .ok wq) (hT : Limit m T)
    (h : ∀ ind s, loadData ind s a = loadData ind s b) :
    main osI osS files (name :: file :: q :: m :: more) = main osI osS files' (name :: file :: q :: m :: more) := by
  have hT' := (atoi_iff m T).2 hT
  have : runTest osI osS files (name :: file :: q :: m :: more) =
      runTest osI osS files' (name :: file :: q :: m :: more) := by
    unfold runTest
    cases LevIndex.new osI with
    | error f => rfl
    | ok ind =>
      rw [ok_bind, ok_bind]
      cases WordStore.new osS with
      | error f => rfl
      | ok s =>
        rw [ok_bind, ok_bind]
        simp only [hq, hT', ok_bind, hf, hf', h]
  rw [main, main, this]

/-- Without assertions, a last line without a newline loses its last byte. -/
theorem loadLoop_chopped [Build] [Icu] {last : Bytes} {b : Nat} (ha : Build.asserts = false) (h0 : 0 ∉ last)
    (hn : 0x0a ∉ last) (hb : b ≠ 0 ∧ b ≠ 0x0a) (hlen : last.length ≤ 1022) : ∀ (ls : List Bytes),
    (∀ l ∈ ls, WordLine l ∧ l.length ≤ 1022) → ∀ (n : Nat) (ind : LevIndex) (s : WordStore),
    loadLoop n (fileOf ls ++ (last ++ [b])) ind s = loadLoop n (fileOf ls ++ (last ++ [0x0a])) ind s := by
  intro ls
  induction ls with
  | nil =>
    intro _ n ind s
    rw [show fileOf [] = [] from rfl, List.nil_append, List.nil_append]
    have hne : ∀ x : Nat, ∃ c rest, last ++ [x] = c :: rest := by
      intro x
      cases last with
      | nil => exact ⟨_, _, rfl⟩
      | cons c l => exact ⟨_, _, rfl⟩
    cases n with
    | zero =>
      obtain ⟨c, rest, e⟩ := hne b
      obtain ⟨c', rest', e'⟩ := hne 0x0a
      rw [e, e', loadLoop, loadLoop]
    | succ n =>
      have g0 : 0 ∉ last ++ [b] := by
        rw [List.mem_append, List.mem_singleton]; rintro (h | h)
        · exact h0 h
        · exact hb.1 h.symm
      have gn : 0x0a ∉ last ++ [b] := by
        rw [List.mem_append, List.mem_singleton]; rintro (h | h)
        · exact hn h
        · exact hb.2 h.symm
      have hfg : fgets 1023 (last ++ [b] ++ []) = (last ++ [b], []) := by
        rw [List.append_nil]; exact fgets_last 1023 _ gn (by simp; omega)
      have e1 := loadLoop_broken (fuel := n) (ind := ind) (s := s) hfg g0 gn (by simp)
      rw [List.append_nil, List.dropLast_concat, ha] at e1
      rw [e1]
      cases hw : Word.ofUtf8 last with
      | error f => rw [loadLoop_bad h0 hn hlen hw]; rfl
      | ok w => rw [loadLoop_line h0 hn hlen hw]; rfl
  | cons l ls ih =>
    intro hl n ind s
    rw [fileOf_cons, List.append_assoc, List.append_assoc, List.cons_append, List.cons_append]
    obtain ⟨hline, hlen'⟩ := hl l (by simp)
    have hnl : 0x0a ∉ l := fun hm => hline.noBlank _ hm (by unfold IsBlank; omega)
    obtain ⟨w, hw⟩ := (Props.C01_accepts l).2 ⟨hline.wellFormed, hline.noBlank⟩
    cases n with
    | zero =>
      cases l with
      | nil => rw [List.nil_append, List.nil_append, loadLoop, loadLoop]
      | cons c l => rw [List.cons_append, List.cons_append, loadLoop, loadLoop]
    | succ n =>
      rw [loadLoop_line hline.noNul hnl hlen' hw, loadLoop_line hline.noNul hnl hlen' hw]
      simp only [ih (fun l' hl' => hl l' (by simp [hl']))]

end QueryIndex
end Columbus
