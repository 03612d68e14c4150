import Verif.Model.ResultsFiles
import Verif.Lemmas.Text
import Mathlib.Data.List.Perm.Subperm

/-!
# Files listing the results (C18)
-/

namespace Verif
open Verif.ResultsFiles Verif.Text

/-! ## Specification -/

/-- The kind of all the results of a topology. -/
inductive ResKind where
  | str | path | other

def ResKind.is : ResKind → Res → Prop
  | .str, .str _ => True
  | .path, .path _ => True
  | .other, .other _ => True
  | _, _ => False

/-- The name of a result. -/
def resName : Res → List Char
  | .str p => pathName p
  | .path n => n
  | .other s => s

/-- One name per line. -/
def linesText (names : List (List Char)) : List Char := names.flatMap (· ++ ['\n'])

/-- The results after a history. -/
def allResults : List Op → List Res
  | [] => []
  | .result r :: ops => r :: allResults ops
  | .save :: ops => allResults ops

/-- The results known at the last save of a history (`before`: those known before the history). -/
def resultsAtLastSave (known : List Res) (atSave : List Res) : List Op → List Res
  | [] => atSave
  | .result r :: ops => resultsAtLastSave (known ++ [r]) atSave ops
  | .save :: ops => resultsAtLastSave known known ops

/-! ## Proofs -/

theorem mapE_eq {α β : Type} (f : α → Except PyErr β) (g : α → β) (l : List α) (h : ∀ a ∈ l, f a = .ok (g a)) :
    mapE f l = .ok (l.map g) := by
  induction l with
  | nil => rfl
  | cons a l ih =>
    unfold mapE
    rw [h a (by simp), ih (fun a ha => h a (by simp [ha]))]
    rfl

theorem batchNames_eq (k : ResKind) (l : List Res) (h : ∀ r ∈ l, k.is r) : batchNames l = .ok (l.map resName) := by
  cases l with
  | nil => rfl
  | cons r rs =>
    have hr := h r (by simp)
    unfold batchNames
    cases k <;> cases r <;> simp only [ResKind.is] at hr
    all_goals
      apply mapE_eq
      intro a ha
      have := h a ha
      cases a <;> simp_all [ResKind.is, viaPath, viaName, viaStr, resName]

theorem join_lines (l : List (List Char)) (h : l ≠ []) : join ['\n'] l ++ ['\n'] = linesText l := by
  induction l with
  | nil => exact absurd rfl h
  | cons a l ih =>
    cases l with
    | nil => simp [join, linesText]
    | cons b l =>
      have := ih (by simp)
      simp only [join, linesText, List.flatMap_cons] at this ⊢
      simp only [List.append_assoc] at this ⊢
      rw [this]

theorem linesText_append (a b : List (List Char)) : linesText (a ++ b) = linesText a ++ linesText b := by
  simp [linesText]

structure ResInv (k : ResKind) (s : State) : Prop where
  kind : ∀ r ∈ s.known, k.is r
  le : s.saved ≤ s.known.length
  names : s.files.names.getD [] = linesText ((s.known.take s.saved).map resName)

theorem save_ok {k : ResKind} {s : State} (h : ResInv k s) : ∃ s', save s = .ok s' ∧ ResInv k s' ∧
    s'.known = s.known ∧ s'.saved = s.known.length ∧ s'.files.len = some (natStr s.known.length ++ ['\n']) ∧
    s'.files.names.getD [] = linesText (s.known.map resName) := by
  unfold save
  simp only
  by_cases he : (s.known.drop s.saved).isEmpty = true
  · rw [if_pos he]
    have hl : s.known.length ≤ s.saved := by simpa using he
    have : s.files.names.getD [] = linesText (s.known.map resName) := by
      rw [h.names, List.take_of_length_le hl]
    refine ⟨_, rfl, ⟨h.kind, Nat.le_refl _, ?_⟩, rfl, rfl, rfl, this⟩
    simpa using this
  · rw [if_neg he, batchNames_eq k _ (fun r hr => h.kind r (List.mem_of_mem_drop hr))]
    have hne : (s.known.drop s.saved).map resName ≠ [] := by simpa using he
    have : s.files.names.getD [] ++ (join ['\n'] ((s.known.drop s.saved).map resName) ++ ['\n']) =
        linesText (s.known.map resName) := by
      rw [join_lines _ hne, h.names, ← linesText_append, ← List.map_append, List.take_append_drop]
    refine ⟨_, rfl, ⟨h.kind, Nat.le_refl _, ?_⟩, rfl, rfl, rfl, this⟩
    simpa [appendTo] using this

theorem history_spec {k : ResKind} {s : State} (h : ResInv k s) (atSave : List Res)
    (hat : s.known.take s.saved = atSave) (hlen : s.saved = atSave.length) (ops : List Op)
    (hk : ∀ r ∈ allResults ops, k.is r) :
    ∃ s', history s ops = .ok s' ∧ ResInv k s' ∧ s'.known = s.known ++ allResults ops ∧
      s'.known.take s'.saved = resultsAtLastSave s.known atSave ops ∧
      s'.saved = (resultsAtLastSave s.known atSave ops).length ∧
      (s.files.len = some (natStr atSave.length ++ ['\n']) ∨ Op.save ∈ ops →
        s'.files.len = some (natStr (resultsAtLastSave s.known atSave ops).length ++ ['\n'])) := by
  induction ops generalizing s atSave with
  | nil =>
    exact ⟨s, rfl, h, by simp [allResults], hat, hlen, fun hh => by
      rcases hh with hh | hh
      · exact hh
      · cases hh⟩
  | cons op ops ih =>
    cases op with
    | result r =>
      have h1 : ResInv k { s with known := s.known ++ [r] } := by
        refine ⟨?_, ?_, ?_⟩
        · intro x hx
          rcases List.mem_append.1 hx with hx | hx
          · exact h.kind x hx
          · rw [List.mem_singleton] at hx; subst hx; exact hk _ (by simp [allResults])
        · have := h.le; simp only [List.length_append, List.length_singleton]; omega
        · show s.files.names.getD [] = _
          rw [h.names, List.take_append_of_le_length h.le]
      obtain ⟨s', e1, e2, e3, e4, e5, e6⟩ := ih h1 atSave (by
          show (s.known ++ [r]).take s.saved = _
          rw [List.take_append_of_le_length h.le, hat]) hlen (fun x hx => hk x (by simp [allResults, hx]))
      refine ⟨s', ?_, e2, ?_, e4, e5, ?_⟩
      · simp only [history, apply]; exact e1
      · rw [e3]; simp [allResults]
      · intro hh
        refine e6 ?_
        rcases hh with hh | hh
        · exact Or.inl hh
        · simp at hh; exact Or.inr hh
    | save =>
      obtain ⟨s1, d1, d2, d3, d4, d5, d6⟩ := save_ok h
      obtain ⟨s', e1, e2, e3, e4, e5, e6⟩ := ih d2 s.known (by rw [d3, d4, List.take_length]) d4
        (fun x hx => hk x (by simpa [allResults] using hx))
      rw [d3] at e3 e4 e5 e6
      refine ⟨s', ?_, e2, by simpa [allResults] using e3, e4, e5, fun _ => e6 (Or.inl d5)⟩
      simp only [history, apply, d1]
      exact e1

theorem ResInv.initSub (k : ResKind) : ResInv k initSub :=
  ⟨by simp [ResultsFiles.initSub], by simp [ResultsFiles.initSub], by simp [ResultsFiles.initSub, linesText]⟩

theorem ResInv.initSeq (k : ResKind) : ResInv k initSeq :=
  ⟨by simp [ResultsFiles.initSeq], by simp [ResultsFiles.initSeq], by simp [ResultsFiles.initSeq, linesText]⟩

/-- C18: after any history of results (all of the same kind) and saves, nothing has been raised, the names file contains
the names of the results known at the last save, once each, in order, one per line, and the other file contains their
number. -/
theorem C18_files (k : ResKind) (s0 : State) (h0 : s0 = initSub ∨ s0 = initSeq) (ops : List Op)
    (hk : ∀ r ∈ allResults ops, k.is r) :
    ∃ s, history s0 ops = .ok s ∧ s.known = allResults ops ∧
      s.files.names.getD [] = linesText ((resultsAtLastSave [] [] ops).map resName) ∧
      (s0 = initSub ∨ Op.save ∈ ops →
        s.files.len = some (natStr (resultsAtLastSave [] [] ops).length ++ ['\n'])) := by
  have hinv : ResInv k s0 := by
    rcases h0 with h0 | h0 <;> subst h0
    · exact .initSub k
    · exact .initSeq k
  have hkn : s0.known = [] := by rcases h0 with h0 | h0 <;> subst h0 <;> rfl
  have hsv : s0.saved = 0 := by rcases h0 with h0 | h0 <;> subst h0 <;> rfl
  obtain ⟨s, e1, e2, e3, e4, _, e6⟩ := history_spec hinv [] (by rw [hkn]; exact List.take_nil) hsv ops hk
  rw [hkn] at e3 e4 e6
  refine ⟨s, e1, by simpa using e3, by rw [e2.names, e4], fun hh => e6 ?_⟩
  rcases hh with hh | hh
  · left
    subst hh
    have hs : natStr 0 = ['0'] := by rw [natStr]; rfl
    simp only [List.length_nil, hs]; rfl
  · exact Or.inr hh

/-- C18: the results known at the last save are the first results (in particular no result is listed twice and the
order is the one of the computation), and all of them if the history ends with a save. -/
theorem C18_last_save (ops : List Op) :
    (∃ rest, allResults ops = resultsAtLastSave [] [] ops ++ rest) ∧
    resultsAtLastSave [] [] (ops ++ [.save]) = allResults ops := by
  have h1 : ∀ (ops : List Op) (known atSave : List Res), (∃ rest, known = atSave ++ rest) →
      ∃ rest, known ++ allResults ops = resultsAtLastSave known atSave ops ++ rest := by
    intro ops
    induction ops with
    | nil => rintro known atSave ⟨rest, h⟩; exact ⟨rest, by simpa [allResults, resultsAtLastSave] using h⟩
    | cons op ops ih =>
      rintro known atSave ⟨rest, h⟩
      cases op with
      | result r =>
        obtain ⟨rest', h'⟩ := ih (known ++ [r]) atSave ⟨rest ++ [r], by rw [h]; simp⟩
        exact ⟨rest', by simpa [allResults, resultsAtLastSave] using h'⟩
      | save => exact ih known known ⟨[], by simp⟩
  have h2 : ∀ (ops : List Op) (known atSave : List Res),
      resultsAtLastSave known atSave (ops ++ [.save]) = known ++ allResults ops := by
    intro ops
    induction ops with
    | nil => intro known atSave; simp [resultsAtLastSave, allResults]
    | cons op ops ih =>
      intro known atSave
      cases op with
      | result r => simp [resultsAtLastSave, allResults, ih]
      | save => simp [resultsAtLastSave, allResults, ih]
  obtain ⟨rest, h⟩ := h1 ops [] [] ⟨[], rfl⟩
  exact ⟨⟨rest, by simpa using h⟩, by simpa using h2 ops [] []⟩

/-- C18, crash during a save: whatever the history before and the moment of the crash, the names file contains at least
the names of the results known at the previous save, followed by a beginning of the names of the other results. -/
theorem C18_crash (k : ResKind) (s0 : State) (h0 : s0 = initSub ∨ s0 = initSeq) (ops : List Op)
    (hk : ∀ r ∈ allResults ops, k.is r) (s : State) (hs : history s0 ops = .ok s) (f : Files) (hc : Crash s f) :
    ∃ t rest, f.names.getD [] = linesText ((resultsAtLastSave [] [] ops).map resName) ++ t ∧
      linesText ((allResults ops).map resName) = linesText ((resultsAtLastSave [] [] ops).map resName) ++ t ++ rest := by
  have hinv : ResInv k s0 := by
    rcases h0 with h0 | h0 <;> subst h0
    · exact .initSub k
    · exact .initSeq k
  have hkn : s0.known = [] := by rcases h0 with h0 | h0 <;> subst h0 <;> rfl
  have hsv : s0.saved = 0 := by rcases h0 with h0 | h0 <;> subst h0 <;> rfl
  obtain ⟨s', e1, e2, e3, e4, _, _⟩ := history_spec hinv [] (by rw [hkn]; exact List.take_nil) hsv ops hk
  rw [hs] at e1
  cases e1
  rw [hkn] at e3 e4
  have hall : linesText ((allResults ops).map resName) =
      linesText ((resultsAtLastSave [] [] ops).map resName) ++ linesText ((s.known.drop s.saved).map resName) := by
    rw [← e4, ← linesText_append, ← List.map_append, List.take_append_drop, e3, List.nil_append]
  have hn := e2.names
  rw [e4] at hn
  cases hc with
  | before => exact ⟨[], linesText ((s.known.drop s.saved).map resName), by rw [hn]; simp, by rw [hall]; simp⟩
  | len t rest _ => exact ⟨[], linesText ((s.known.drop s.saved).map resName), by show s.files.names.getD [] = _; rw [hn]; simp, by rw [hall]; simp⟩
  | names ns t rest hne hb ht =>
    rw [batchNames_eq k _ (fun r hr => e2.kind r (List.mem_of_mem_drop hr))] at hb
    cases hb
    rw [join_lines _ (by simpa using hne)] at ht
    exact ⟨t, rest, by show s.files.names.getD [] ++ t = _; rw [hn], by rw [hall, ht]; simp⟩

/-- A crash in the middle of the second file: the name of the second result is half written. -/
example : Crash ⟨[.str "a.h5".toList, .str "b.h5".toList], 1, ⟨some "1\n".toList, some "a.h5\n".toList⟩⟩
    ⟨some "2\n".toList, some "a.h5\nb.".toList⟩ := by
  have h2 : natStr 2 = ['2'] := by rw [natStr]; rfl
  have h := Crash.names (s := ⟨[.str "a.h5".toList, .str "b.h5".toList], 1, ⟨some "1\n".toList, some "a.h5\n".toList⟩⟩)
    ["b.h5".toList] "b.".toList "h5\n".toList rfl (by decide +kernel) (by decide)
  simp only [List.length_cons, List.length_nil, h2] at h
  exact h

/-! ## Reading back -/

theorem readLines (l : List (List Char)) (hl : ∀ s ∈ l, ∀ c ∈ s, c ≠ '\n') :
    fileLines (linesText l) = l.map (· ++ ['\n']) := by
  cases l with
  | nil => rfl
  | cons a l => rw [← join_lines _ (by simp), fileLines_join _ (by simp) hl]

theorem dropWhile_self_of_length {p : Char → Bool} {s : List Char} (h : s.length ≤ (s.dropWhile p).length) :
    s.dropWhile p = s :=
  (List.dropWhile_suffix p).eq_of_length_le h

theorem strip_line (s : List Char) (h : strip s = s) : strip (s ++ ['\n']) = s := by
  have h1 := congrArg List.length h
  unfold strip at h1
  rw [List.length_reverse] at h1
  have h2 := (List.dropWhile_suffix (l := (s.dropWhile isSpace).reverse) isSpace).length_le
  have h3 := (List.dropWhile_suffix (l := s) isSpace).length_le
  rw [List.length_reverse] at h2
  have h4 : s.dropWhile isSpace = s := dropWhile_self_of_length (by omega)
  rw [h4] at h1
  have h5 : s.reverse.dropWhile isSpace = s.reverse := dropWhile_self_of_length (by rw [List.length_reverse]; omega)
  have hn : isSpace '\n' = true := by decide
  cases s with
  | nil => decide
  | cons c cs =>
    have hc : isSpace c = false := by
      cases hcs : isSpace c with
      | false => rfl
      | true =>
        rw [List.dropWhile_cons, if_pos hcs] at h4
        have h6 := (List.dropWhile_suffix (l := cs) isSpace).length_le
        rw [h4, List.length_cons] at h6
        omega
    unfold strip
    have h7 : ((c :: cs) ++ ['\n']).dropWhile isSpace = (c :: cs) ++ ['\n'] := by
      rw [List.cons_append, List.dropWhile_cons, if_neg (by simp [hc])]
    rw [h7, List.reverse_append, List.reverse_singleton, List.singleton_append, List.dropWhile_cons, if_pos hn, h5,
      List.reverse_reverse]

theorem globResults_resultsName (i : Nat) : globResults (resultsName i) = true := by
  unfold globResults resultsName
  rw [List.append_assoc, List.drop_left, Bool.and_eq_true, List.isPrefixOf_iff_prefix, List.isSuffixOf_iff_suffix]
  exact ⟨List.prefix_append _ _, List.suffix_append _ _⟩

theorem globResults_lenName (i : Nat) : globResults (lenName i) = false := by
  unfold globResults lenName
  rw [Bool.and_eq_false_iff]
  left
  simp [resultsPrefix, List.isPrefixOf]

theorem digitsVal_zeros (n : Nat) (s : List Char) : digitsVal 0 (List.replicate n '0' ++ s) = digitsVal 0 s := by
  induction n with
  | zero => simp
  | succ n ih => rw [List.replicate_succ, List.cons_append]; simpa [digitsVal, digitVal] using ih

/-- C18: the files of two sub-processes have different names. -/
theorem C18_distinct_files (i j : Nat) : (resultsName i = resultsName j ↔ i = j) ∧ (lenName i = lenName j ↔ i = j) ∧
    resultsName i ≠ lenName j := by
  have hp : pad3 i = pad3 j → i = j := by
    intro h
    have := congrArg (digitsVal 0) h
    unfold pad3 at this
    rw [digitsVal_zeros, digitsVal_zeros, digitsVal_natStr, digitsVal_natStr] at this
    simpa using this
  refine ⟨⟨fun h => hp ?_, fun h => by rw [h]⟩, ⟨fun h => hp ?_, fun h => by rw [h]⟩, ?_⟩
  · simpa [resultsName] using h
  · simpa [lenName] using h
  · intro h
    have h1 := globResults_resultsName i
    rw [h, globResults_lenName] at h1
    cases h1

theorem natStr_three (i : Nat) (h : 100 ≤ i) : 3 ≤ (natStr i).length := by
  unfold natStr
  rw [if_neg (by omega), List.length_append]
  unfold natStr
  rw [if_neg (by omega), List.length_append]
  have := List.length_pos_iff.2 (natStr_ne_nil (i / 10 / 10))
  simp only [List.length_singleton]
  omega

/-- C18: the names of the files of a sub-process contain its number, with at least three digits: "results_000.txt", ..., "results_999.txt",
"results_1000.txt"; the number of digits is the one of the number if it has more than three digits. -/
theorem C18_file_names (i : Nat) : ∃ digits : Txt, resultsName i = "results_".toList ++ digits ++ ".txt".toList ∧
    digitsVal 0 digits = some i ∧ digits.length = max 3 (natStr i).length ∧ (100 ≤ i → digits = natStr i) := by
  refine ⟨pad3 i, rfl, ?_, ?_, ?_⟩
  · unfold pad3
    rw [digitsVal_zeros, digitsVal_natStr]
  · unfold pad3
    rw [List.length_append, List.length_replicate]
    omega
  · intro h
    have h3 : 3 ≤ (natStr i).length := natStr_three i h
    unfold pad3
    rw [show 3 - (natStr i).length = 0 by omega]
    rfl

example : resultsName 7 = "results_007.txt".toList ∧ resultsName 1234 = "results_1234.txt".toList := by decide +kernel

/-- C18: the multi-process executor reads back exactly the names of the results of all the sub-processes (each as many
times as it has been produced), whatever the order in which the files of the job directory are listed.  `names i` are
the names written by process `i`; they contain no newline and no white space at their ends. -/
theorem C18_read_back (n : Nat) (names : Nat → List (List Char)) (lens : Nat → List Char) (others dir : List (List Char × List Char))
    (hnames : ∀ i < n, ∀ s ∈ names i, (∀ c ∈ s, c ≠ '\n') ∧ strip s = s)
    (hothers : ∀ f ∈ others, globResults f.1 = false)
    (hdir : dir.Perm ((List.range n).map (fun i => (resultsName i, linesText (names i))) ++
      (List.range n).map (fun i => (lenName i, lens i)) ++ others)) :
    (readBack dir).Perm ((List.range n).flatMap names) := by
  have h1 : (readBack dir).Perm (readBack ((List.range n).map (fun i => (resultsName i, linesText (names i))) ++
      (List.range n).map (fun i => (lenName i, lens i)) ++ others)) := (hdir.filter _).flatMap_right _
  refine h1.trans ?_
  unfold readBack
  rw [List.filter_append, List.filter_append]
  have e1 : ((List.range n).map (fun i => (resultsName i, linesText (names i)))).filter (fun f => globResults f.1) =
      (List.range n).map (fun i => (resultsName i, linesText (names i))) := by
    rw [List.filter_eq_self]
    intro f hf
    obtain ⟨i, _, rfl⟩ := List.mem_map.1 hf
    exact globResults_resultsName i
  have e2 : ((List.range n).map (fun i => (lenName i, lens i))).filter (fun f => globResults f.1) = [] := by
    rw [List.filter_eq_nil_iff]
    intro f hf
    obtain ⟨i, _, rfl⟩ := List.mem_map.1 hf
    simp [globResults_lenName i]
  have e3 : others.filter (fun f => globResults f.1) = [] := by
    rw [List.filter_eq_nil_iff]
    intro f hf
    simp [hothers f hf]
  rw [e1, e2, e3, List.append_nil, List.append_nil, List.flatMap_map]
  refine List.Perm.of_eq ?_
  have : ∀ l : List Nat, (∀ i ∈ l, i < n) →
      l.flatMap (fun i => (fileLines (linesText (names i))).map strip) = l.flatMap names := by
    intro l hl
    induction l with
    | nil => rfl
    | cons i l ih =>
      rw [List.flatMap_cons, List.flatMap_cons, ih (fun j hj => hl j (by simp [hj])),
        readLines _ (fun s hs => (hnames i (hl i (by simp)) s hs).1), List.map_map]
      congr 1
      conv_rhs => rw [← List.map_id (names i)]
      exact List.map_congr_left (fun s hs => strip_line s (hnames i (hl i (by simp)) s hs).2)
  exact this _ (fun i hi => List.mem_range.1 hi)

/-- A history of the sequential executor, and the hypotheses of the theorems met. -/
example : history initSeq [.result (.str "out/a.h5".toList), .save, .result (.str "out/b.h5".toList),
      .result (.str "c.h5".toList), .save, .result (.str "d.h5".toList)] =
    .ok ⟨[.str "out/a.h5".toList, .str "out/b.h5".toList, .str "c.h5".toList, .str "d.h5".toList], 3,
      ⟨some "3\n".toList, some "a.h5\nb.h5\nc.h5\n".toList⟩⟩ := by
  have h1 : natStr 1 = ['1'] := by rw [natStr]; rfl
  have h3 : natStr 3 = ['3'] := by rw [natStr]; rfl
  simp [history, apply, save, initSeq, batchNames, mapE, viaPath, h1, h3, appendTo, join]
  decide

example : (readBack [(lenName 1, "1\n".toList), (resultsName 1, "c.h5\n".toList), ("params.xml".toList, []),
    (resultsName 0, "a.h5\nb.h5\n".toList), (lenName 0, "2\n".toList)]) =
    ["c.h5".toList, "a.h5".toList, "b.h5".toList] := by
  have h0 : natStr 0 = ['0'] := by rw [natStr]; rfl
  have h1 : natStr 1 = ['1'] := by rw [natStr]; rfl
  simp only [lenName, resultsName, pad3, h0, h1]
  decide

end Verif
