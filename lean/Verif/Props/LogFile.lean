import Verif.Model.LogFile
import Mathlib.Data.List.Basic
import Mathlib.Data.List.Infix
import Mathlib.Data.List.Nodup

/-!
# C80: the analysis of the log files
-/

namespace Verif
open Verif.LogFile Verif.Text

namespace LogLemmas

theorem wordsAux_space (cur a : List Char) (c : Char) (rest : List Char) (hc : isSpace c = true) :
    wordsAux cur (a ++ c :: rest) = wordsAux cur a ++ words rest := by
  induction a generalizing cur with
  | nil =>
    simp only [List.nil_append, wordsAux, hc, if_true]
    by_cases h : cur = []
    · simp [h, words]
    · simp [h, words]
  | cons x xs ih =>
    simp only [List.cons_append, wordsAux]
    by_cases hx : isSpace x = true
    · simp only [hx, if_true]
      by_cases h : cur = []
      · simp only [h, if_true]; exact ih []
      · simp only [h, if_false, List.cons_append]; rw [ih []]
    · simp only [hx]
      exact ih _

theorem words_space (a rest : List Char) : words (a ++ ' ' :: rest) = words a ++ words rest :=
  wordsAux_space [] a ' ' rest rfl

/-- A word: not empty, without white space. -/
def IsWord (w : List Char) : Prop := w ≠ [] ∧ ∀ c ∈ w, isSpace c = false

theorem wordsAux_word (cur w : List Char) (h : ∀ c ∈ w, isSpace c = false) (hne : cur ++ w ≠ []) : wordsAux cur w = [cur ++ w] := by
  induction w generalizing cur with
  | nil => simp only [List.append_nil] at hne ⊢; simp [wordsAux, hne]
  | cons x xs ih =>
    have hx := h x (by simp)
    simp only [wordsAux, hx]
    rw [if_neg (by simp), ih (cur ++ [x]) (fun c hc => h c (by simp [hc])) (by simp)]
    simp

theorem words_word {w : List Char} (h : IsWord w) : words w = [w] := by
  have := wordsAux_word [] w h.2 (by simpa using h.1)
  simpa [words] using this

theorem words_nil : words [] = [] := by simp [words, wordsAux]

theorem words_spaces (n : Nat) (rest : List Char) : words (List.replicate n ' ' ++ rest) = words rest := by
  induction n with
  | zero => simp
  | succ n ih =>
    rw [List.replicate_succ, List.cons_append]
    have := words_space [] (List.replicate n ' ' ++ rest)
    rw [List.nil_append] at this
    rw [this, ih, words_nil, List.nil_append]

theorem contains_iff (sub l : List Char) : contains sub l = true ↔ sub <:+: l := by
  induction l with
  | nil => simp [contains]
  | cons c cs ih =>
    simp only [contains, Bool.or_eq_true, ih, List.isPrefixOf_iff_prefix]
    rw [List.infix_cons_iff]

/-- A word between two spaces is one of the words. -/
theorem word_of_contains {w l : List Char} (hw : IsWord w) (h : ' ' :: (w ++ [' ']) <:+: l) : w ∈ words l := by
  obtain ⟨a, b, rfl⟩ := h
  have e : a ++ ' ' :: (w ++ [' ']) ++ b = a ++ ' ' :: (w ++ ' ' :: b) := by simp
  rw [e, words_space, words_space, words_word hw]
  simp

theorem nameNoSpace_word {name : List Char} (h0 : name ≠ []) (h : ∀ c ∈ name, isSpace c = true → c = ' ') :
    IsWord (nameNoSpace name) := by
  constructor
  · simpa [nameNoSpace] using h0
  · intro c hc
    simp only [nameNoSpace, List.mem_map] at hc
    obtain ⟨x, hx, rfl⟩ := hc
    by_cases e : x = ' '
    · rw [if_pos e]; rfl
    · rw [if_neg e]
      cases hs : isSpace x with
      | false => rfl
      | true => exact absurd (h x hx hs) e

theorem word_append {a b : List Char} (ha : ∀ c ∈ a, isSpace c = false) (hb : ∀ c ∈ b, isSpace c = false) (h : a ≠ [] ∨ b ≠ []) :
    IsWord (a ++ b) := by
  constructor
  · simpa [List.append_eq_nil_iff, imp_iff_not_or, or_comm] using h
  · intro c hc
    rcases List.mem_append.1 hc with hc | hc
    · exact ha c hc
    · exact hb c hc

theorem lit_0 : " s. Launch work ".toList = [' ', 's', '.', ' ', 'L', 'a', 'u', 'n', 'c', 'h', ' ', 'w', 'o', 'r', 'k', ' '] := by decide
theorem lit_1 : " (".toList = [' ', '('] := by decide
theorem lit_2 : "). mem usage".toList = [')', '.', ' ', 'm', 'e', 'm', ' ', 'u', 's', 'a', 'g', 'e'] := by decide
theorem lit_3 : ": ".toList = [':', ' '] := by decide
theorem lit_4 : " Mb".toList = [' ', 'M', 'b'] := by decide
theorem lit_5 : "work ".toList = ['w', 'o', 'r', 'k', ' '] := by decide
theorem lit_6 : ") ".toList = [')', ' '] := by decide
theorem lit_7 : "done in ".toList = ['d', 'o', 'n', 'e', ' ', 'i', 'n', ' '] := by decide
theorem lit_8 : " s".toList = [' ', 's'] := by decide
theorem lit_9 : ". Launch work ".toList = ['.', ' ', 'L', 'a', 'u', 'n', 'c', 'h', ' ', 'w', 'o', 'r', 'k', ' '] := by decide
theorem lit_10 : ". mem usage: ".toList = ['.', ' ', 'm', 'e', 'm', ' ', 'u', 's', 'a', 'g', 'e', ':', ' '] := by decide
theorem lit_11 : "ERROR: ".toList = ['E', 'R', 'R', 'O', 'R', ':', ' '] := by decide
theorem lit_12 : " done in ".toList = [' ', 'd', 'o', 'n', 'e', ' ', 'i', 'n', ' '] := by decide

/-- The line of a launch without the colour, as words. -/
theorem launch_text (t name key mem : List Char) : ∃ k, (launchLine t name key mem).drop 5 =
    t ++ ' ' :: (['s', '.'] ++ ' ' :: (['L', 'a', 'u', 'n', 'c', 'h'] ++ ' ' :: (['w', 'o', 'r', 'k'] ++ ' ' :: (nameNoSpace name ++ ' ' ::
      ((['('] ++ key ++ [')', '.']) ++ ' ' :: (['m', 'e', 'm'] ++ ' ' :: (['u', 's', 'a', 'g', 'e', ':'] ++ ' ' ::
        (List.replicate k ' ' ++ (mem ++ ' ' :: (['M', 'b'] ++ endc)))))))))) := by
  have hl : ∃ k, ljust 30 (t ++ " s. Launch work ".toList ++ nameNoSpace name ++ (" (".toList ++ key ++ "). mem usage".toList) ++
      ": ".toList) = (t ++ " s. Launch work ".toList ++ nameNoSpace name ++ (" (".toList ++ key ++ "). mem usage".toList) ++
      ": ".toList) ++ List.replicate k ' ' := ⟨_, rfl⟩
  obtain ⟨k, hk⟩ := hl
  refine ⟨k, ?_⟩
  rw [launchLine, memLine, hk]
  simp only [okGreen, lit_0, lit_1, lit_2, lit_3, lit_4, List.cons_append, List.nil_append, List.append_assoc,
    List.drop_succ_cons, List.drop_zero]

theorem done_text (name key d : List Char) : doneLine name key d =
    ['w', 'o', 'r', 'k'] ++ ' ' :: (nameNoSpace name ++ ' ' :: ((['('] ++ key ++ [')']) ++ ' ' :: (['d', 'o', 'n', 'e'] ++ ' ' ::
      (['i', 'n'] ++ ' ' :: (d ++ ' ' :: ['s']))))) := by
  unfold doneLine
  simp only [lit_1, lit_5, lit_6, lit_7, lit_8, List.cons_append, List.nil_append, List.append_assoc]

theorem launch_words {t name key mem : List Char} (ht : IsWord t) (hn : IsWord (nameNoSpace name))
    (hk : ∀ c ∈ key, isSpace c = false) (hm : IsWord mem) : words ((launchLine t name key mem).drop 5) =
      [t, ['s', '.'], ['L', 'a', 'u', 'n', 'c', 'h'], ['w', 'o', 'r', 'k'], nameNoSpace name, ['('] ++ key ++ [')', '.'], ['m', 'e', 'm'],
        ['u', 's', 'a', 'g', 'e', ':'], mem, ['M', 'b'] ++ endc] := by
  obtain ⟨k, e⟩ := launch_text t name key mem
  have hk' : IsWord (['('] ++ key ++ [')', '.']) := by
    refine ⟨by simp, ?_⟩
    intro c hc
    simp only [List.mem_append, List.mem_cons, List.not_mem_nil, or_false] at hc
    rcases hc with (rfl | hc) | rfl | rfl
    · rfl
    · exact hk c hc
    · rfl
    · rfl
  rw [e, words_space, words_space, words_space, words_space, words_space, words_space, words_space, words_space, words_spaces,
    words_space, words_word ht, words_word hn, words_word hk', words_word hm]
  rfl

theorem done_words {name key d : List Char} (hn : IsWord (nameNoSpace name)) (hk : ∀ c ∈ key, isSpace c = false)
    (hd : IsWord d) : words (doneLine name key d) =
      [['w', 'o', 'r', 'k'], nameNoSpace name, ['('] ++ key ++ [')'], ['d', 'o', 'n', 'e'], ['i', 'n'], d, ['s']] := by
  have hk' : IsWord (['('] ++ key ++ [')']) := by
    refine ⟨by simp, ?_⟩
    intro c hc
    simp only [List.mem_append, List.mem_cons, List.not_mem_nil, or_false] at hc
    rcases hc with (rfl | hc) | rfl
    · rfl
    · exact hk c hc
    · rfl
  rw [done_text, words_space, words_space, words_space, words_space, words_space, words_space, words_word hn, words_word hk',
    words_word hd]
  rfl

theorem prefix_word {a w rest : List Char} (ha : IsWord a) (hw : IsWord w) (h : a ++ [' '] <+: w ++ ' ' :: rest) : a = w := by
  obtain ⟨z, hz⟩ := h
  have h1 : words (a ++ ' ' :: z) = words (w ++ ' ' :: rest) := by
    rw [← hz]
    simp
  rw [words_space, words_space, words_word ha, words_word hw] at h1
  simp only [List.cons_append, List.nil_append, List.cons.injEq] at h1
  exact h1.1

end LogLemmas

open LogLemmas

/-- What is assumed of `float`: the words which are not numbers are refused. -/
def FloatOk (fl : List Char → Option ℚ) : Prop := fl ['w', 'o', 'r', 'k'] = none ∧ fl ['u', 's', 'a', 'g', 'e', ':'] = none ∧
  fl ['e', 'x', 'e', 'c', 'u', 't', 'i', 'o', 'n', '.'] = none

/-- The name of a work: not empty, no white space except spaces, and not `usage:`. -/
def GoodName (name : List Char) : Prop :=
  name ≠ [] ∧ (∀ c ∈ name, isSpace c = true → c = ' ') ∧ nameNoSpace name ≠ ['u', 's', 'a', 'g', 'e', ':']

/-- A key without white space. -/
def GoodKey (key : List Char) : Prop := ∀ c ∈ key, isSpace c = false

/-- The text of a number: a word which is read by `float`. -/
def IsNumber (fl : List Char → Option ℚ) (w : List Char) : Prop := IsWord w ∧ (fl w).isSome

/-- Events whose texts are as expected; the other lines are not like the lines of the executors. -/
def GoodEvent (fl : List Char → Option ℚ) : Event → Prop
  | .launch t name key mem => IsNumber fl t ∧ GoodName name ∧ GoodKey key ∧ IsNumber fl mem
  | .done name key d => GoodName name ∧ GoodKey key ∧ IsNumber fl d
  | .other line => contains ". mem usage: ".toList line = false ∧
      ("work ".toList.isPrefixOf line && contains " done in ".toList line) = false

/-- The number which is read. -/
def numberOf (fl : List Char → Option ℚ) (w : List Char) : ℚ := (fl w).getD 0

/-- Specification: the launches, in the order of the file. -/
def launches (fl : List Char → Option ℚ) : List Event → List Launch
  | [] => []
  | .launch t name key mem :: es => ⟨nameNoSpace name, key, numberOf fl mem, numberOf fl t⟩ :: launches fl es
  | _ :: es => launches fl es

/-- Specification: the works which are done, in the order of the file. -/
def dones (fl : List Char → Option ℚ) : List Event → List Ended
  | [] => []
  | .done name key d :: es => ⟨nameNoSpace name, key, numberOf fl d⟩ :: dones fl es
  | _ :: es => dones fl es

namespace LogLemmas
variable {fl pd : List Char → Option ℚ}

theorem isSome_number {w : List Char} (h : (fl w).isSome) : fl w = some (numberOf fl w) := by
  cases e : fl w with
  | none => rw [e] at h; cases h
  | some v => simp [numberOf, e]

theorem parse_launch (hf : FloatOk fl) (t name key mem : List Char) (h : GoodEvent fl (.launch t name key mem)) (s : Data) :
    parseLine fl pd s (launchLine t name key mem) = .ok { s with mem := some (numberOf fl mem), works := s.works ++
      [⟨nameNoSpace name, key, numberOf fl mem, numberOf fl t⟩] } := by
  obtain ⟨⟨ht, ht'⟩, ⟨hn1, hn2, hn3⟩, hk, ⟨hm, hm'⟩⟩ := h
  have hw := launch_words ht (nameNoSpace_word hn1 hn2) hk hm
  obtain ⟨k, e⟩ := launch_text t name key mem
  have h0 : ("ERROR: ".toList.isPrefixOf (launchLine t name key mem)) = false := by
    rw [lit_11]
    simp only [launchLine, memLine, okGreen, List.cons_append]
    rfl
  have h1 : contains ". mem usage: ".toList (launchLine t name key mem) = true := by
    rw [contains_iff]
    have : ". mem usage: ".toList <:+: (launchLine t name key mem).drop 5 := by
      rw [e, lit_10]
      refine ⟨t ++ ' ' :: (['s', '.'] ++ ' ' :: (['L', 'a', 'u', 'n', 'c', 'h'] ++ ' ' :: (['w', 'o', 'r', 'k'] ++ ' ' ::
        (nameNoSpace name ++ ' ' :: (['('] ++ key ++ [')']))))),
        List.replicate k ' ' ++ (mem ++ ' ' :: (['M', 'b'] ++ endc)), ?_⟩
      simp only [List.cons_append, List.nil_append, List.append_assoc]
    exact this.trans (List.drop_suffix _ _).isInfix
  have h2 : contains ". Launch work ".toList ((launchLine t name key mem).drop 5) = true := by
    rw [contains_iff, e, lit_9]
    exact ⟨t ++ [' ', 's'], nameNoSpace name ++ ' ' ::
      ((['('] ++ key ++ [')', '.']) ++ ' ' :: (['m', 'e', 'm'] ++ ' ' :: (['u', 's', 'a', 'g', 'e', ':'] ++ ' ' ::
        (List.replicate k ' ' ++ (mem ++ ' ' :: (['M', 'b'] ++ endc)))))), by
        simp only [List.cons_append, List.nil_append, List.append_assoc]⟩
  have h3 : ("work ".toList.isPrefixOf ((launchLine t name key mem).drop 5)) = false := by
    by_contra hc
    rw [Bool.not_eq_false, List.isPrefixOf_iff_prefix, e, lit_5] at hc
    have := prefix_word (a := ['w', 'o', 'r', 'k']) ⟨by simp, by decide⟩ ht hc
    rw [← this, hf.1] at ht'
    cases ht'
  have hkey : ((['('] ++ key ++ [')', '.']).drop 1).dropLast.dropLast = key := by
    have : (['('] ++ key ++ [')', '.']).drop 1 = (key ++ [')']) ++ ['.'] := by simp
    rw [this, List.dropLast_concat, List.dropLast_concat]
  unfold parseLine
  rw [h0, h1]
  simp only [Bool.false_eq_true, if_false, if_true]
  unfold parseMem
  rw [h2, hw]
  simp only [lastButOne, List.length_cons, List.length_nil, List.getElem?_cons_succ, List.getElem?_cons_zero, if_true,
    isSome_number hm', isSome_number ht', hkey]
  simp only [show 2 ≤ 0 + 1 + 1 + 1 + 1 + 1 + 1 + 1 + 1 + 1 + 1 from by omega, if_true,
    show 0 + 1 + 1 + 1 + 1 + 1 + 1 + 1 + 1 + 1 + 1 - 2 = 8 from rfl, List.getElem?_cons_succ, List.getElem?_cons_zero,
    isSome_number hm']
  unfold parseDone
  rw [h3]
  rfl

theorem parse_done (hf : FloatOk fl) (name key d : List Char) (h : GoodEvent fl (.done name key d)) (s : Data) :
    parseLine fl pd s (doneLine name key d) = .ok { s with ended := s.ended ++ [⟨nameNoSpace name, key, numberOf fl d⟩] } := by
  obtain ⟨⟨hn1, hn2, hn3⟩, hk, ⟨hd, hd'⟩⟩ := h
  have hw := done_words (nameNoSpace_word hn1 hn2) hk hd
  have e := done_text name key d
  have h0 : ("ERROR: ".toList.isPrefixOf (doneLine name key d)) = false := by
    rw [lit_11, e]
    rfl
  have h1 : contains ". mem usage: ".toList (doneLine name key d) = false := by
    by_contra hc
    rw [Bool.not_eq_false, contains_iff, lit_10] at hc
    have hu : ['u', 's', 'a', 'g', 'e', ':'] ∈ words (doneLine name key d) := by
      apply word_of_contains ⟨by simp, by decide⟩
      refine List.IsInfix.trans ?_ hc
      exact ⟨['.', ' ', 'm', 'e', 'm'], [], rfl⟩
    rw [hw] at hu
    simp only [List.mem_cons, List.not_mem_nil, or_false] at hu
    rcases hu with h | h | h | h | h | h | h
    · exact absurd h (by decide)
    · exact hn3 h.symm
    · simp at h
    · exact absurd h (by decide)
    · exact absurd h (by decide)
    · rw [← h, hf.2.1] at hd'; cases hd'
    · exact absurd h (by decide)
  have h2 : ("work ".toList.isPrefixOf (doneLine name key d)) = true := by
    rw [lit_5, e]
    rfl
  have h3 : contains " done in ".toList (doneLine name key d) = true := by
    rw [contains_iff, e, lit_12]
    exact ⟨['w', 'o', 'r', 'k'] ++ ' ' :: (nameNoSpace name ++ ' ' :: (['('] ++ key ++ [')'])), d ++ ' ' :: ['s'], by
      simp only [List.cons_append, List.nil_append, List.append_assoc]⟩
  have hkey : ((['('] ++ key ++ [')']).drop 1).dropLast = key := by
    have : (['('] ++ key ++ [')']).drop 1 = key ++ [')'] := by simp
    rw [this, List.dropLast_concat]
  unfold parseLine
  rw [h0, h1]
  simp only [Bool.false_eq_true, if_false]
  unfold parseDone
  rw [h2, h3, hw]
  simp only [lastButOne, List.length_cons, List.length_nil, List.getElem?_cons_succ, List.getElem?_cons_zero, hkey]
  simp only [show 2 ≤ 0 + 1 + 1 + 1 + 1 + 1 + 1 + 1 from by omega, if_true, Bool.and_self,
    show 0 + 1 + 1 + 1 + 1 + 1 + 1 + 1 - 2 = 5 from rfl, List.getElem?_cons_succ, List.getElem?_cons_zero,
    isSome_number hd']
  rw [hkey]

theorem parse_other (line : List Char) (h : GoodEvent fl (.other line)) (s : Data) : parseLine fl pd s line = .ok s := by
  obtain ⟨h1, h2⟩ := h
  unfold parseLine
  split
  · rfl
  · rw [h1]
    simp only [Bool.false_eq_true, if_false]
    unfold parseDone
    rw [h2]
    rfl

/-- The words of a date and of a colon. -/
theorem date_word {date : List Char} (h : ∀ c ∈ date, isSpace c = false) : IsWord (date ++ [':']) := by
  refine ⟨by simp, ?_⟩
  intro c hc
  simp only [List.mem_append, List.mem_cons, List.not_mem_nil, or_false] at hc
  rcases hc with hc | rfl
  · exact h c hc
  · rfl

theorem date_ne {date w : List Char} (h : ':' ∉ w) : w ≠ date ++ [':'] := by
  rintro rfl
  exact h (by simp)

theorem start_text (date mem : List Char) : ∃ k, (startLine date mem).drop 5 = (date ++ [':']) ++ ' ' ::
    (['s', 't', 'a', 'r', 't', 'i', 'n', 'g'] ++ ' ' :: (['e', 'x', 'e', 'c', 'u', 't', 'i', 'o', 'n', '.'] ++ ' ' ::
      (['m', 'e', 'm'] ++ ' ' :: (['u', 's', 'a', 'g', 'e', ':'] ++ ' ' ::
        (List.replicate k ' ' ++ (mem ++ ' ' :: (['M', 'b'] ++ endc))))))) := by
  have hl : ∃ k, ljust 30 (date ++ ": starting execution. mem usage".toList ++ ": ".toList) =
      (date ++ ": starting execution. mem usage".toList ++ ": ".toList) ++ List.replicate k ' ' := ⟨_, rfl⟩
  obtain ⟨k, hk⟩ := hl
  refine ⟨k, ?_⟩
  have l0 : ": starting execution. mem usage".toList = [':', ' ', 's', 't', 'a', 'r', 't', 'i', 'n', 'g', ' ', 'e', 'x', 'e', 'c', 'u', 't', 'i',
    'o', 'n', '.', ' ', 'm', 'e', 'm', ' ', 'u', 's', 'a', 'g', 'e'] := by decide
  rw [startLine, memLine, hk]
  simp only [okGreen, l0, lit_3, lit_4, List.cons_append, List.nil_append, List.append_assoc,
    List.drop_succ_cons, List.drop_zero]

theorem stop_text (date mem : List Char) : ∃ k, (stopLine date mem).drop 5 = (date ++ [':']) ++ ' ' ::
    (['e', 'n', 'd'] ++ ' ' :: (['o', 'f'] ++ ' ' :: (['`', 'c', 'o', 'm', 'p', 'u', 't', 'e', '`', '.'] ++ ' ' ::
      (['m', 'e', 'm'] ++ ' ' :: (['u', 's', 'a', 'g', 'e', ':'] ++ ' ' ::
        (List.replicate k ' ' ++ (mem ++ ' ' :: (['M', 'b'] ++ endc)))))))) := by
  have hl : ∃ k, ljust 30 (date ++ ": end of `compute`. mem usage".toList ++ ": ".toList) =
      (date ++ ": end of `compute`. mem usage".toList ++ ": ".toList) ++ List.replicate k ' ' := ⟨_, rfl⟩
  obtain ⟨k, hk⟩ := hl
  refine ⟨k, ?_⟩
  have l0 : ": end of `compute`. mem usage".toList = [':', ' ', 'e', 'n', 'd', ' ', 'o', 'f', ' ', '`', 'c', 'o', 'm', 'p', 'u', 't', 'e', '`',
    '.', ' ', 'm', 'e', 'm', ' ', 'u', 's', 'a', 'g', 'e'] := by decide
  rw [stopLine, memLine, hk]
  simp only [okGreen, l0, lit_3, lit_4, List.cons_append, List.nil_append, List.append_assoc,
    List.drop_succ_cons, List.drop_zero]

theorem start_words {date mem : List Char} (hd : ∀ c ∈ date, isSpace c = false) (hm : IsWord mem) :
    words ((startLine date mem).drop 5) = [date ++ [':'], ['s', 't', 'a', 'r', 't', 'i', 'n', 'g'],
      ['e', 'x', 'e', 'c', 'u', 't', 'i', 'o', 'n', '.'], ['m', 'e', 'm'], ['u', 's', 'a', 'g', 'e', ':'], mem, ['M', 'b'] ++ endc] := by
  obtain ⟨k, e⟩ := start_text date mem
  rw [e, words_space, words_space, words_space, words_space, words_space, words_spaces, words_space, words_word (date_word hd),
    words_word hm]
  rfl

theorem stop_words {date mem : List Char} (hd : ∀ c ∈ date, isSpace c = false) (hm : IsWord mem) :
    words ((stopLine date mem).drop 5) = [date ++ [':'], ['e', 'n', 'd'], ['o', 'f'],
      ['`', 'c', 'o', 'm', 'p', 'u', 't', 'e', '`', '.'], ['m', 'e', 'm'], ['u', 's', 'a', 'g', 'e', ':'], mem, ['M', 'b'] ++ endc] := by
  obtain ⟨k, e⟩ := stop_text date mem
  rw [e, words_space, words_space, words_space, words_space, words_space, words_space, words_spaces, words_space,
    words_word (date_word hd), words_word hm]
  rfl

theorem parse_start (hf : FloatOk fl) (date mem : List Char) (t : ℚ) (hd : ∀ c ∈ date, isSpace c = false)
    (ht : pd date = some t) (hmem : IsNumber fl mem) (s : Data) :
    parseLine fl pd s (startLine date mem) =
      .ok { s with mem := some (numberOf fl mem), memStart := some (numberOf fl mem), timeStart := some t } := by
  obtain ⟨hm, hm'⟩ := hmem
  have hw := start_words hd hm
  obtain ⟨k, e⟩ := start_text date mem
  have h0 : ("ERROR: ".toList.isPrefixOf (startLine date mem)) = false := by
    rw [lit_11]
    simp only [startLine, memLine, okGreen, List.cons_append]
    rfl
  have h1 : contains ". mem usage: ".toList (startLine date mem) = true := by
    rw [contains_iff]
    have : ". mem usage: ".toList <:+: (startLine date mem).drop 5 := by
      rw [e, lit_10]
      refine ⟨(date ++ [':']) ++ ' ' :: (['s', 't', 'a', 'r', 't', 'i', 'n', 'g'] ++ ' ' :: ['e', 'x', 'e', 'c', 'u', 't', 'i', 'o', 'n']),
        List.replicate k ' ' ++ (mem ++ ' ' :: (['M', 'b'] ++ endc)), ?_⟩
      simp only [List.cons_append, List.nil_append, List.append_assoc]
    exact this.trans (List.drop_suffix _ _).isInfix
  have h2 : contains ". Launch work ".toList ((startLine date mem).drop 5) = false := by
    by_contra hc
    rw [Bool.not_eq_false, contains_iff, lit_9] at hc
    have hu : ['w', 'o', 'r', 'k'] ∈ words ((startLine date mem).drop 5) := by
      apply word_of_contains ⟨by simp, by decide⟩
      refine List.IsInfix.trans ?_ hc
      exact ⟨['.', ' ', 'L', 'a', 'u', 'n', 'c', 'h'], [], rfl⟩
    rw [hw] at hu
    simp only [List.mem_cons, List.not_mem_nil, or_false] at hu
    rcases hu with h | h | h | h | h | h | h
    · exact date_ne (by decide) h
    · exact absurd h (by decide)
    · exact absurd h (by decide)
    · exact absurd h (by decide)
    · exact absurd h (by decide)
    · rw [← h, hf.1] at hm'; cases hm'
    · exact absurd h (by decide)
  have h3 : ("work ".toList.isPrefixOf ((startLine date mem).drop 5)) = false := by
    by_contra hc
    rw [Bool.not_eq_false, List.isPrefixOf_iff_prefix, e, lit_5] at hc
    exact date_ne (by decide) (prefix_word (a := ['w', 'o', 'r', 'k']) ⟨by simp, by decide⟩ (date_word hd) hc)
  have h4 : contains ": starting execution. mem usage".toList ((startLine date mem).drop 5) = true := by
    rw [contains_iff, e]
    refine ⟨date, ':' :: ' ' :: (List.replicate k ' ' ++ (mem ++ ' ' :: (['M', 'b'] ++ endc))), ?_⟩
    rw [show ": starting execution. mem usage".toList = [':', ' ', 's', 't', 'a', 'r', 't', 'i', 'n', 'g', ' ', 'e', 'x', 'e', 'c', 'u', 't',
      'i', 'o', 'n', '.', ' ', 'm', 'e', 'm', ' ', 'u', 's', 'a', 'g', 'e'] from by decide]
    simp only [List.cons_append, List.nil_append, List.append_assoc]
  unfold parseLine
  rw [h0, h1]
  simp only [Bool.false_eq_true, if_false, if_true]
  unfold parseMem
  rw [h2, h4, hw]
  simp only [lastButOne, List.length_cons, List.length_nil, List.getElem?_cons_zero, Bool.false_eq_true, if_false, if_true,
    List.dropLast_concat, ht]
  simp only [show 2 ≤ 0 + 1 + 1 + 1 + 1 + 1 + 1 + 1 from by omega, if_true,
    show 0 + 1 + 1 + 1 + 1 + 1 + 1 + 1 - 2 = 5 from rfl, List.getElem?_cons_succ, List.getElem?_cons_zero, isSome_number hm']
  unfold parseDone
  rw [h3]
  rfl

theorem parse_stop (hf : FloatOk fl) (date mem : List Char) (t t0 : ℚ) (hd : ∀ c ∈ date, isSpace c = false)
    (ht : pd date = some t) (hmem : IsNumber fl mem) (s : Data) (hs : s.timeStart = some t0) :
    parseLine fl pd s (stopLine date mem) =
      .ok { s with mem := some (numberOf fl mem), memEnd := some (numberOf fl mem), duration := some (t - t0) } := by
  obtain ⟨hm, hm'⟩ := hmem
  have hw := stop_words hd hm
  obtain ⟨k, e⟩ := stop_text date mem
  have h0 : ("ERROR: ".toList.isPrefixOf (stopLine date mem)) = false := by
    rw [lit_11]
    simp only [stopLine, memLine, okGreen, List.cons_append]
    rfl
  have h1 : contains ". mem usage: ".toList (stopLine date mem) = true := by
    rw [contains_iff]
    have : ". mem usage: ".toList <:+: (stopLine date mem).drop 5 := by
      rw [e, lit_10]
      refine ⟨(date ++ [':']) ++ ' ' :: (['e', 'n', 'd'] ++ ' ' :: (['o', 'f'] ++ ' ' :: ['`', 'c', 'o', 'm', 'p', 'u', 't', 'e', '`'])),
        List.replicate k ' ' ++ (mem ++ ' ' :: (['M', 'b'] ++ endc)), ?_⟩
      simp only [List.cons_append, List.nil_append, List.append_assoc]
    exact this.trans (List.drop_suffix _ _).isInfix
  have h2 : contains ". Launch work ".toList ((stopLine date mem).drop 5) = false := by
    by_contra hc
    rw [Bool.not_eq_false, contains_iff, lit_9] at hc
    have hu : ['w', 'o', 'r', 'k'] ∈ words ((stopLine date mem).drop 5) := by
      apply word_of_contains ⟨by simp, by decide⟩
      refine List.IsInfix.trans ?_ hc
      exact ⟨['.', ' ', 'L', 'a', 'u', 'n', 'c', 'h'], [], rfl⟩
    rw [hw] at hu
    simp only [List.mem_cons, List.not_mem_nil, or_false] at hu
    rcases hu with h | h | h | h | h | h | h | h
    · exact date_ne (by decide) h
    · exact absurd h (by decide)
    · exact absurd h (by decide)
    · exact absurd h (by decide)
    · exact absurd h (by decide)
    · exact absurd h (by decide)
    · rw [← h, hf.1] at hm'; cases hm'
    · exact absurd h (by decide)
  have h3 : ("work ".toList.isPrefixOf ((stopLine date mem).drop 5)) = false := by
    by_contra hc
    rw [Bool.not_eq_false, List.isPrefixOf_iff_prefix, e, lit_5] at hc
    exact date_ne (by decide) (prefix_word (a := ['w', 'o', 'r', 'k']) ⟨by simp, by decide⟩ (date_word hd) hc)
  have h4 : contains ": starting execution. mem usage".toList ((stopLine date mem).drop 5) = false := by
    by_contra hc
    rw [Bool.not_eq_false, contains_iff, show ": starting execution. mem usage".toList = [':', ' ', 's', 't', 'a', 'r', 't', 'i', 'n', 'g', ' ',
      'e', 'x', 'e', 'c', 'u', 't', 'i', 'o', 'n', '.', ' ', 'm', 'e', 'm', ' ', 'u', 's', 'a', 'g', 'e'] from by decide] at hc
    have hu : ['e', 'x', 'e', 'c', 'u', 't', 'i', 'o', 'n', '.'] ∈ words ((stopLine date mem).drop 5) := by
      apply word_of_contains ⟨by simp, by decide⟩
      refine List.IsInfix.trans ?_ hc
      exact ⟨[':', ' ', 's', 't', 'a', 'r', 't', 'i', 'n', 'g'], ['m', 'e', 'm', ' ', 'u', 's', 'a', 'g', 'e'], rfl⟩
    rw [hw] at hu
    simp only [List.mem_cons, List.not_mem_nil, or_false] at hu
    rcases hu with h | h | h | h | h | h | h | h
    · exact date_ne (by decide) h
    · exact absurd h (by decide)
    · exact absurd h (by decide)
    · exact absurd h (by decide)
    · exact absurd h (by decide)
    · exact absurd h (by decide)
    · rw [← h, hf.2.2] at hm'; cases hm'
    · exact absurd h (by decide)
  have h5 : contains ": end of `compute`. mem usage".toList ((stopLine date mem).drop 5) = true := by
    rw [contains_iff, e]
    refine ⟨date, ':' :: ' ' :: (List.replicate k ' ' ++ (mem ++ ' ' :: (['M', 'b'] ++ endc))), ?_⟩
    rw [show ": end of `compute`. mem usage".toList = [':', ' ', 'e', 'n', 'd', ' ', 'o', 'f', ' ', '`', 'c', 'o', 'm', 'p', 'u', 't', 'e', '`',
      '.', ' ', 'm', 'e', 'm', ' ', 'u', 's', 'a', 'g', 'e'] from by decide]
    simp only [List.cons_append, List.nil_append, List.append_assoc]
  unfold parseLine
  rw [h0, h1]
  simp only [Bool.false_eq_true, if_false, if_true]
  unfold parseMem
  rw [h2, h4, h5, hw]
  simp only [lastButOne, List.length_cons, List.length_nil, List.getElem?_cons_zero, Bool.false_eq_true, if_false, if_true,
    List.dropLast_concat, ht]
  simp only [show 2 ≤ 0 + 1 + 1 + 1 + 1 + 1 + 1 + 1 + 1 from by omega, if_true,
    show 0 + 1 + 1 + 1 + 1 + 1 + 1 + 1 + 1 - 2 = 6 from rfl, List.getElem?_cons_succ, List.getElem?_cons_zero, isSome_number hm', hs]
  unfold parseDone
  rw [h3]
  rfl

theorem parse_append (fl pd : List Char → Option ℚ) : ∀ (l1 l2 : List (List Char)) (s : Data), parse fl pd s (l1 ++ l2) =
    match parse fl pd s l1 with
    | .error e => .error e
    | .ok s => parse fl pd s l2
  | [], _, _ => rfl
  | line :: l1, l2, s => by
    simp only [List.cons_append, parse]
    cases parseLine fl pd s line with
    | error e => rfl
    | ok s => exact parse_append fl pd l1 l2 s

theorem parse_events (hf : FloatOk fl) : ∀ (es : List Event) (s : Data), (∀ e ∈ es, GoodEvent fl e) →
    ∃ m, parse fl pd s (es.map Event.line) =
      .ok { s with works := s.works ++ launches fl es, ended := s.ended ++ dones fl es, mem := m }
  | [], s, _ => ⟨s.mem, by simp [parse, launches, dones]⟩
  | e :: es, s, h => by
    have he := h e (by simp)
    have hes : ∀ e ∈ es, GoodEvent fl e := fun e' he' => h e' (by simp [he'])
    cases e with
    | launch t name key mem =>
      obtain ⟨m, hm⟩ := parse_events hf es { s with mem := some (numberOf fl mem), works := s.works ++
        [⟨nameNoSpace name, key, numberOf fl mem, numberOf fl t⟩] } hes
      refine ⟨m, ?_⟩
      simp only [List.map_cons, Event.line, parse, parse_launch hf t name key mem he, hm, launches, dones]
      simp
    | done name key d =>
      obtain ⟨m, hm⟩ := parse_events hf es { s with ended := s.ended ++ [⟨nameNoSpace name, key, numberOf fl d⟩] } hes
      refine ⟨m, ?_⟩
      simp only [List.map_cons, Event.line, parse, parse_done hf name key d he, hm, launches, dones]
      simp
    | other line =>
      obtain ⟨m, hm⟩ := parse_events hf es s hes
      refine ⟨m, ?_⟩
      simp only [List.map_cons, Event.line, parse, parse_other line he, hm, launches, dones]

end LogLemmas

/-- **C80** (reading, proved part).  For keys without white space, whatever is written by the executor and printed by the works (except
lines which are like those of the executor), the analysis of the file succeeds and gives the launches and the ends of works
which have been written, with their names, keys, times, memories and durations, in the order of the file.  Missing: keys with
white space, for which it is false. -/
theorem C80_read_partial (fl pd : List Char → Option ℚ) (hf : FloatOk fl) (es : List Event) (h : ∀ e ∈ es, GoodEvent fl e) :
    ∃ d, parse fl pd Data.empty (es.map Event.line) = .ok d ∧ d.works = launches fl es ∧ d.ended = dones fl es := by
  obtain ⟨m, hm⟩ := parse_events (pd := pd) hf es Data.empty h
  exact ⟨_, hm, by simp [Data.empty], by simp [Data.empty]⟩

/-- **C80** (whole execution).  With the lines written at the start and at the end of the execution, at dates `t0` and `t1`: the memories
at the start and at the end are those which have been written, the duration is `t1 - t0`, and the launches and the ends are
those written before, between and after these lines. -/
theorem C80_whole_partial (fl pd : List Char → Option ℚ) (hf : FloatOk fl) (pre mid post : List Event)
    (h : ∀ e ∈ pre ++ mid ++ post, GoodEvent fl e) (date0 mem0 date1 mem1 : List Char) (t0 t1 : ℚ)
    (hd0 : ∀ c ∈ date0, isSpace c = false) (ht0 : pd date0 = some t0) (hm0 : IsNumber fl mem0)
    (hd1 : ∀ c ∈ date1, isSpace c = false) (ht1 : pd date1 = some t1) (hm1 : IsNumber fl mem1) :
    ∃ d, parse fl pd Data.empty (pre.map Event.line ++ startLine date0 mem0 :: (mid.map Event.line ++
        stopLine date1 mem1 :: post.map Event.line)) = .ok d ∧
      d.memStart = fl mem0 ∧ d.memEnd = fl mem1 ∧ d.duration = some (t1 - t0) ∧
      d.works = launches fl pre ++ launches fl mid ++ launches fl post ∧ d.ended = dones fl pre ++ dones fl mid ++ dones fl post := by
  have e0 := isSome_number hm0.2
  have e1 := isSome_number hm1.2
  obtain ⟨m1, p1⟩ := parse_events (pd := pd) hf pre Data.empty (fun e he => h e (by simp [he]))
  rw [parse_append, p1]
  simp only [parse]
  rw [parse_start hf date0 mem0 t0 hd0 ht0 hm0]
  simp only []
  rw [parse_append]
  obtain ⟨m2, p2⟩ := parse_events (pd := pd) hf mid { Data.empty with
    works := Data.empty.works ++ launches fl pre, ended := Data.empty.ended ++ dones fl pre, mem := some (numberOf fl mem0),
    memStart := some (numberOf fl mem0), timeStart := some t0 } (fun e he => h e (by simp [he]))
  rw [p2]
  simp only [parse]
  rw [parse_stop hf date1 mem1 t1 t0 hd1 ht1 hm1 _ rfl]
  simp only []
  obtain ⟨m3, p3⟩ := parse_events (pd := pd) hf post { Data.empty with
    works := Data.empty.works ++ launches fl pre ++ launches fl mid, ended := Data.empty.ended ++ dones fl pre ++ dones fl mid,
    mem := some (numberOf fl mem1), memStart := some (numberOf fl mem0), timeStart := some t0,
    memEnd := some (numberOf fl mem1), duration := some (t1 - t0) } (fun e he => h e (by simp [he]))
  rw [p3]
  exact ⟨_, rfl, e0.symm, e1.symm, rfl, by simp [Data.empty], by simp [Data.empty]⟩

/-- **C80**: an execution which has not been finished (no last line: it has been killed) is analysed, without duration. -/
theorem C80_killed_partial (fl pd : List Char → Option ℚ) (hf : FloatOk fl) (pre mid : List Event)
    (h : ∀ e ∈ pre ++ mid, GoodEvent fl e) (date0 mem0 : List Char) (t0 : ℚ)
    (hd0 : ∀ c ∈ date0, isSpace c = false) (ht0 : pd date0 = some t0) (hm0 : IsNumber fl mem0) :
    ∃ d, parse fl pd Data.empty (pre.map Event.line ++ startLine date0 mem0 :: mid.map Event.line) = .ok d ∧
      d.memStart = fl mem0 ∧ d.memEnd = none ∧ d.duration = none ∧ d.works = launches fl pre ++ launches fl mid := by
  have e0 := isSome_number hm0.2
  obtain ⟨m1, p1⟩ := parse_events (pd := pd) hf pre Data.empty (fun e he => h e (by simp [he]))
  rw [parse_append, p1]
  simp only [parse]
  rw [parse_start hf date0 mem0 t0 hd0 ht0 hm0]
  simp only []
  obtain ⟨m2, p2⟩ := parse_events (pd := pd) hf mid { Data.empty with
    works := Data.empty.works ++ launches fl pre, ended := Data.empty.ended ++ dones fl pre, mem := some (numberOf fl mem0),
    memStart := some (numberOf fl mem0), timeStart := some t0 } (fun e he => h e (by simp [he]))
  rw [p2]
  exact ⟨_, rfl, e0.symm, rfl, rfl, by simp [Data.empty]⟩

/-- The hypotheses of the two theorems above: the texts of the numbers. -/
example : IsNumber (fun w => if w = "12.5".toList then some (25 / 2) else none) "12.5".toList ∧
    ∀ c ∈ "2024-01-02_03-04-05".toList, isSpace c = false :=
  ⟨⟨⟨by decide, by decide⟩, by decide +kernel⟩, by decide⟩

/-- The texts of the numbers in the examples. -/
def exampleFloat (w : List Char) : Option ℚ := if w = ['1'] then some 1 else if w = ['2'] then some 2 else none

/-- The hypotheses are met: a start at 1 s with 2 Mb, an end at 2 s with 1 Mb. -/
example : ∃ d, parse exampleFloat exampleFloat Data.empty
    [startLine ['1'] ['2'], launchLine ['1'] ['r'] ['i'] ['2'], doneLine ['r'] ['i'] ['1'], stopLine ['2'] ['1']] = .ok d ∧
      d.duration = some 1 ∧ d.memStart = some 2 ∧ d.memEnd = some 1 := by
  refine ⟨⟨[⟨['r'], ['i'], 2, 1⟩], [⟨['r'], ['i'], 1⟩], some 1, some 2, some 1, some 1, some 1⟩, ?_, rfl, rfl, rfl⟩
  decide +kernel

/-! ### Durations -/

/-- **C80** (names).  The names are those of the works which have been launched, once each. -/
theorem C80_names (works : List Launch) :
    (namesWorks works []).Nodup ∧ ∀ name, name ∈ namesWorks works [] ↔ ∃ w ∈ works, w.name = name := by
  have h : ∀ (works : List Launch) (names : List (List Char)), names.Nodup →
      (namesWorks works names).Nodup ∧ ∀ name, name ∈ namesWorks works names ↔ name ∈ names ∨ ∃ w ∈ works, w.name = name := by
    intro works
    induction works with
    | nil => intro names hn; simpa [namesWorks] using hn
    | cons w ws ih =>
      intro names hn
      simp only [namesWorks]
      by_cases hm : w.name ∈ names
      · rw [if_pos hm]
        obtain ⟨h1, h2⟩ := ih names hn
        refine ⟨h1, fun name => ?_⟩
        rw [h2]
        constructor
        · rintro (h | ⟨x, hx, e⟩)
          · exact Or.inl h
          · exact Or.inr ⟨x, by simp [hx], e⟩
        · rintro (h | ⟨x, hx, e⟩)
          · exact Or.inl h
          · rcases List.mem_cons.1 hx with rfl | hx
            · exact Or.inl (e ▸ hm)
            · exact Or.inr ⟨x, hx, e⟩
      · rw [if_neg hm]
        obtain ⟨h1, h2⟩ := ih (names ++ [w.name]) (by
          rw [List.nodup_append]
          refine ⟨hn, by simp, ?_⟩
          intro a ha b hb e
          rw [List.mem_singleton] at hb
          exact hm (hb ▸ e ▸ ha))
        refine ⟨h1, fun name => ?_⟩
        rw [h2]
        constructor
        · rintro (h | ⟨x, hx, e⟩)
          · rcases List.mem_append.1 h with h | h
            · exact Or.inl h
            · exact Or.inr ⟨w, by simp, (List.mem_singleton.1 h).symm⟩
          · exact Or.inr ⟨x, by simp [hx], e⟩
        · rintro (h | ⟨x, hx, e⟩)
          · exact Or.inl (by simp [h])
          · rcases List.mem_cons.1 hx with rfl | hx
            · exact Or.inl (by simp [e])
            · exact Or.inr ⟨x, hx, e⟩
  obtain ⟨h1, h2⟩ := h works [] (by simp)
  exact ⟨h1, fun name => by rw [h2]; simp⟩

/-- **C80** (durations, proved part).  If each key is done at most once for each work, then for each work the lists of times, keys and
durations are those of its launches, in order, and the duration of a launch is the one of the end with the same name and
key, NaN if there is none.  Missing: keys done several times (global works), for which it is false. -/
theorem C80_durations_partial (works : List Launch) (ended : List Ended) (name : List Char)
    (hnd : ((ended.filter (fun e => e.name = name)).map Ended.key).Nodup) (i : Nat) (w : Launch)
    (hw : (works.filter (fun w => w.name = name))[i]? = some w) :
    (keysOf works name)[i]? = some w.key ∧ (timesOf works name)[i]? = some w.time ∧
    (∀ d, (durationsOf works ended name)[i]? = some (some d) ↔ ⟨name, w.key, d⟩ ∈ ended) ∧
    ((durationsOf works ended name)[i]? = some none ↔ ∀ d, ⟨name, w.key, d⟩ ∉ ended) := by
  have hk : (keysOf works name)[i]? = some w.key := by simp [keysOf, hw]
  have ht : (timesOf works name)[i]? = some w.time := by simp [timesOf, hw]
  have hd : (durationsOf works ended name)[i]? = some (((((ended.filter (fun e => e.name = name))).reverse.find?
      (fun e => e.key = w.key)).map Ended.duration)) := by
    simp [durationsOf, hk]
  have hfind : ∀ d, (((ended.filter (fun e => e.name = name)).reverse.find? (fun e => e.key = w.key)).map Ended.duration) = some d ↔
      ⟨name, w.key, d⟩ ∈ ended := by
    intro d
    constructor
    · intro h
      cases hf : ((ended.filter (fun e => e.name = name)).reverse.find? (fun e => e.key = w.key)) with
      | none => rw [hf] at h; cases h
      | some e =>
        rw [hf] at h
        have h1 := List.mem_of_find?_eq_some hf
        have h2 := List.find?_some hf
        simp only [List.mem_reverse, List.mem_filter, decide_eq_true_eq] at h1
        simp only [decide_eq_true_eq] at h2
        simp only [Option.map_some, Option.some.injEq] at h
        obtain ⟨n, k, d'⟩ := e
        simp only at h1 h2 h
        rw [← h, ← h2, ← h1.2]
        exact h1.1
    · intro h
      have hmem : (⟨name, w.key, d⟩ : Ended) ∈ (ended.filter (fun e => e.name = name)) := by simp [h]
      cases hf : ((ended.filter (fun e => e.name = name)).reverse.find? (fun e => e.key = w.key)) with
      | none =>
        rw [List.find?_eq_none] at hf
        have := hf _ (List.mem_reverse.2 hmem)
        simp at this
      | some e =>
        have h1 := List.mem_of_find?_eq_some hf
        have h2 := List.find?_some hf
        rw [List.mem_reverse] at h1
        simp only [decide_eq_true_eq] at h2
        have := List.inj_on_of_nodup_map hnd h1 hmem h2
        rw [this]
        rfl
  refine ⟨hk, ht, ?_, ?_⟩
  · intro d
    rw [hd, Option.some.injEq, hfind]
  · rw [hd, Option.some.injEq]
    constructor
    · intro h d hd'
      rw [(hfind d).2 hd'] at h
      cases h
    · intro h
      cases hf : (((ended.filter (fun e => e.name = name)).reverse.find? (fun e => e.key = w.key)).map Ended.duration) with
      | none => rfl
      | some d => exact absurd ((hfind d).1 hf) (h d)

/-- **C80** fails for works executed several times with the same key (global works: the key is always `kind='global'`): all the
executions get the duration of the last one. -/
theorem C80_repeated_fails (name key : List Char) (m t1 t2 d1 d2 : ℚ) :
    durationsOf [⟨name, key, m, t1⟩, ⟨name, key, m, t2⟩] [⟨name, key, d1⟩, ⟨name, key, d2⟩] name = [some d2, some d2] := by
  simp [durationsOf, keysOf]

/-- **C80** fails for keys with spaces (names of images can have spaces): the item is done in 2 s, but the key which is read at the
launch is not the one which is read at the end (none of them is the key), and the duration is NaN. -/
theorem C80_spaces_fails : ∃ d, parse exampleFloat (fun _ => none) Data.empty
    ([Event.launch ['1'] ['r'] ['i', 'm', ' ', '1'] ['2'], Event.done ['r'] ['i', 'm', ' ', '1'] ['2']].map Event.line) = .ok d ∧
      d.works = [⟨['r'], [], 2, 1⟩] ∧ d.ended = [⟨['r'], ['i'], 2⟩] ∧ durationsOf d.works d.ended ['r'] = [none] := by
  refine ⟨⟨[⟨['r'], [], 2, 1⟩], [⟨['r'], ['i'], 2⟩], some 2, none, none, none, none⟩, ?_, rfl, rfl, ?_⟩
  · decide +kernel
  · decide +kernel

/-- The same without space: the hypotheses of `C80_read_partial` and `C80_durations_partial` are met. -/
example : FloatOk exampleFloat ∧ (∀ e ∈ [Event.launch ['1'] ['r', ' ', 'k'] ['i', 'm', '1'] ['2'], Event.done ['r', ' ', 'k'] ['i', 'm', '1'] ['2']],
    GoodEvent exampleFloat e) ∧ ∃ d, parse exampleFloat (fun _ => none) Data.empty
    ([Event.launch ['1'] ['r', ' ', 'k'] ['i', 'm', '1'] ['2'], Event.done ['r', ' ', 'k'] ['i', 'm', '1'] ['2']].map Event.line) = .ok d ∧
      durationsOf d.works d.ended ['r', '_', 'k'] = [some 2] := by
  refine ⟨⟨by decide, by decide, by decide⟩, ?_, ⟨[⟨['r', '_', 'k'], ['i', 'm', '1'], 2, 1⟩], [⟨['r', '_', 'k'], ['i', 'm', '1'], 2⟩], some 2, none, none,
    none, none⟩, by decide +kernel, by decide +kernel⟩
  intro e he
  simp only [List.mem_cons, List.not_mem_nil, or_false] at he
  rcases he with rfl | rfl
  · refine ⟨⟨⟨by decide, by decide⟩, rfl⟩, ⟨by decide, by decide, by decide⟩, ?_, ⟨⟨by decide, by decide⟩, rfl⟩⟩
    unfold GoodKey
    decide
  · refine ⟨⟨by decide, by decide, by decide⟩, ?_, ⟨⟨by decide, by decide⟩, rfl⟩⟩
    unfold GoodKey
    decide

/-! ### Selection of works in a plot -/

/-- **C80** fails for `plot_nb_workers(str_names)`: it is a `KeyError` as soon as one work is not selected. -/
theorem C80_plot_fails (names : List (List Char)) (sel : List Char) :
    (∀ name ∈ names, sel <:+: name) ∧ plotNbWorkers names (some sel) = .ok names ∨
    (∃ name ∈ names, ¬ sel <:+: name) ∧ plotNbWorkers names (some sel) = .error .keyError := by
  by_cases h : ∀ name ∈ names, sel <:+: name
  · left
    refine ⟨h, ?_⟩
    unfold plotNbWorkers
    simp only
    rw [if_pos]
    rw [List.all_eq_true]
    intro name hn
    simp only [List.mem_filter, decide_eq_true_eq]
    exact ⟨hn, (contains_iff sel name).2 (h name hn)⟩
  · right
    push Not at h
    obtain ⟨name, hn, hs⟩ := h
    refine ⟨⟨name, hn, hs⟩, ?_⟩
    unfold plotNbWorkers
    simp only
    rw [if_neg]
    intro hall
    rw [List.all_eq_true] at hall
    have := hall name hn
    simp only [List.mem_filter, decide_eq_true_eq] at this
    exact hs ((contains_iff sel name).1 this.2)

/-- Without selection, all the works are plotted. -/
theorem C80_plot_all (names : List (List Char)) : plotNbWorkers names none = .ok names := by
  unfold plotNbWorkers
  simp

end Verif
