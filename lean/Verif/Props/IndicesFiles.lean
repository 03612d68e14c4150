import Verif.Model.IndicesFiles
import Verif.Lemmas.Text

/-!
# C03 — index files written for the child processes are read back unchanged
-/

namespace Verif
open Verif.Text Verif.IndicesFiles

private theorem mapM_ok {α β ε : Type} (f : α → Except ε β) (l : List α) (r : α → β)
    (h : ∀ a ∈ l, f a = .ok (r a)) : l.mapM f = .ok (l.map r) := by
  induction l with
  | nil => rfl
  | cons a as ih =>
    rw [List.mapM_cons, h a (by simp), ih (fun b hb => h b (by simp [hb]))]
    rfl

/-- C03 (series topologies). Every non-empty list of indices of series (of any length, any integers) is read back unchanged, in
the same order. (No file is written for an empty list, see C04.) -/
theorem C03_series_indices_round_trip (indices : List Int) (h : indices ≠ []) :
    readSeriesIndices (writeSeriesIndices indices) = .ok indices := by
  unfold readSeriesIndices writeSeriesIndices indicesText
  rw [fileLines_join _ (by simpa using h)]
  · rw [List.map_map]
    have := mapM_ok (fun i => pyInt (((fun s => s ++ ['\n']) ∘ intStr) i)) indices id ?_
    · rw [List.mapM_map]
      rw [List.map_id] at this
      exact this
    · intro i _
      have := pyInt_pad [] ['\n'] i (by simp) (by simp [isSpace])
      simpa using this
  · intro s hs c hc
    rw [List.mem_map] at hs
    obtain ⟨i, _, rfl⟩ := hs
    exact (numChar_facts c (intStr_chars i c hc)).2.2.1

private theorem join_comma_chars (l : List Int) : ∀ c ∈ join [',', ' '] (l.map intStr), c ≠ '\n' := by
  induction l with
  | nil => simp [join]
  | cons i is ih =>
    cases is with
    | nil =>
      intro c hc
      exact (numChar_facts c (intStr_chars i c (by simpa [join] using hc))).2.2.1
    | cons j js =>
      intro c hc
      simp only [List.map_cons, join, List.mem_append] at hc
      rcases hc with (hc | hc) | hc
      · exact (numChar_facts c (intStr_chars i c hc)).2.2.1
      · simp at hc; rcases hc with rfl | rfl <;> decide
      · exact ih c (by simpa using hc)

private theorem tupleStr_form (t : List Int) :
    ∃ body, tupleStr t = '(' :: body ++ [')'] ∧ (∀ c ∈ body, c ≠ '\n') ∧
      ((splitChar ',' body).filter (fun c => !c.isEmpty)).mapM (fun c => pyInt (strip c)) = .ok t := by
  have hcomma : ∀ (i : Int), ∀ c ∈ intStr i, c ≠ ',' :=
    fun i c hc => (numChar_facts c (intStr_chars i c hc)).2.1
  have hstrip : ∀ i : Int, pyInt (strip (intStr i)) = .ok i := by
    intro i
    have h := strip_intStr_pad [] [] i (by simp) (by simp)
    have h' : strip (intStr i) = intStr i := by simpa using h
    rw [h']
    exact pyInt_of_strip _ _ h'
  have hstrip' : ∀ i : Int, pyInt (strip (' ' :: intStr i)) = .ok i := by
    intro i
    have h := strip_intStr_pad [' '] [] i (by simp [isSpace]) (by simp)
    have h2 := strip_intStr_pad [] [] i (by simp) (by simp)
    have h' : strip (' ' :: intStr i) = intStr i := by simpa using h
    rw [h']
    exact pyInt_of_strip _ _ (by simpa using h2)
  match t with
  | [] =>
    refine ⟨[], by simp [tupleStr, join], by simp, ?_⟩
    simp [splitChar]; rfl
  | [i] =>
    refine ⟨intStr i ++ [','], by simp [tupleStr], ?_, ?_⟩
    · intro c hc
      rw [List.mem_append] at hc
      rcases hc with hc | hc
      · exact (numChar_facts c (intStr_chars i c hc)).2.2.1
      · simp at hc; subst hc; decide
    · rw [splitChar_piece ',' _ [] (hcomma i)]
      have : (intStr i).isEmpty = false := by simp [intStr_ne_nil]
      simp only [splitChar, List.filter, this, Bool.not_false, List.isEmpty_nil, Bool.not_true]
      rw [List.mapM_cons, hstrip]; rfl
  | i :: j :: rest =>
    refine ⟨join [',', ' '] ((i :: j :: rest).map intStr), by simp [tupleStr],
      join_comma_chars _, ?_⟩
    rw [List.map_cons, splitChar_join_comma]
    · have e1 : (intStr i).isEmpty = false := by simp [intStr_ne_nil]
      have e2 : ((intStr i :: ((j :: rest).map intStr).map (' ' :: ·)).filter (fun c => !c.isEmpty))
          = intStr i :: ((j :: rest).map intStr).map (' ' :: ·) := by
        rw [List.filter_eq_self]
        intro s hs
        rw [List.mem_cons] at hs
        rcases hs with rfl | hs
        · simp [e1]
        · rw [List.mem_map] at hs
          obtain ⟨_, _, rfl⟩ := hs; rfl
      rw [e2, List.mapM_cons, hstrip, List.map_map, List.mapM_map]
      rw [mapM_ok _ (j :: rest) id (fun k _ => by simpa using hstrip' k)]
      simp; rfl
    · intro s hs c hc
      rw [← List.map_cons (f := intStr), List.mem_map] at hs
      obtain ⟨k, _, rfl⟩ := hs
      exact hcomma k c hc

/-- C03 (images topologies). Every non-empty list of tuples of indices (of any lengths, the empty tuple and 1-tuples included, any
integers) is read back unchanged, in the same order. -/
theorem C03_images_indices_round_trip (indices : List (List Int)) (h : indices ≠ []) :
    readImagesIndices (writeImagesIndices indices) = .ok indices := by
  unfold readImagesIndices writeImagesIndices indicesText
  rw [fileLines_join _ (by simpa using h)]
  · rw [List.map_map, List.mapM_map]
    rw [mapM_ok _ indices id]
    · simp
    · intro t _
      obtain ⟨body, hb, _, hp⟩ := tupleStr_form t
      unfold tupleIntsFromStr
      simp only [Function.comp_apply, hb]
      have hs : strip ('(' :: body ++ [')'] ++ ['\n']) = '(' :: body ++ [')'] := by
        have := strip_pad [] ['\n'] ('(' :: body ++ [')']) (by simp) (by simp [isSpace]) (by simp)
          (by simp [isSpace]) (by rw [List.getLast_append_of_ne_nil _ (by simp)]; decide)
        simpa using this
      rw [hs]
      have : slice1m1 ('(' :: body ++ [')']) = body := by simp [slice1m1]
      rw [this, hp]; rfl
  · intro s hs c hc
    rw [List.mem_map] at hs
    obtain ⟨t, _, rfl⟩ := hs
    obtain ⟨body, hb, hn, _⟩ := tupleStr_form t
    rw [hb] at hc
    simp only [List.cons_append, List.mem_cons, List.mem_append, List.not_mem_nil, or_false] at hc
    rcases hc with rfl | hc | rfl
    · decide
    · exact hn c hc
    · decide

/-- C03: the written text determines the indices (two different index lists never give the same file). -/
theorem C03_written_files_distinct (a b : List (List Int)) (ha : a ≠ []) (hb : b ≠ [])
    (h : writeImagesIndices a = writeImagesIndices b) : a = b := by
  have h1 := C03_images_indices_round_trip a ha
  rw [h, C03_images_indices_round_trip b hb] at h1
  exact (Except.ok.inj h1).symm

-- non-trivial instances, and the reason why empty lists have to be skipped
example : writeImagesIndices [[0, 12], [-3]] = "(0, 12)\n(-3,)\n".toList := by decide +kernel
example : readImagesIndices "(0, 12)\n(-3,)\n".toList = .ok [[0, 12], [-3]] := by decide +kernel
example : readSeriesIndices (writeSeriesIndices [3, 10]) = .ok [3, 10] := by decide +kernel
example : readSeriesIndices (writeSeriesIndices []) = .error .valueError := by decide +kernel

end Verif
