import Verif.Model.Names
import Verif.Lemmas.Text
import Verif.Props.ResultDir

/-!
# Names of the files of results (C46)
-/

namespace Verif
open Verif.Names Verif.Text

/-! ## Specification -/

/-- The first and the last index of a slicing tuple `(start,)` or `(start, stop, …)`. -/
def firstLast : List Int → Option (Int × Int)
  | [] => none
  | [a] => some (a, a)
  | a :: b :: _ => some (a, b - 1)

/-- A dimension indexed by numbers (possibly with leading zeros): different texts of decimal digits. -/
structure NumberFormat (str : Int → List Char) (ok : Int → Prop) : Prop where
  digits : ∀ i, ok i → ∀ c ∈ str i, (digitVal c).isSome = true
  inj : ∀ i j, ok i → ok j → str i = str j → i = j

/-- A dimension indexed by letters: different single letters. -/
structure LetterFormat (str : Int → List Char) (ok : Int → Prop) : Prop where
  letter : ∀ i, ok i → ∃ c, str i = [c] ∧ isLetter c = true
  inj : ∀ i j, ok i → ok j → str i = str j → i = j

/-- The first and last indices of a tuple are valid indices of the dimension. -/
def ValidTuple (ok : Int → Prop) (t : List Int) : Prop := ∃ a b, firstLast t = some (a, b) ∧ ok a ∧ ok b

theorem digit_not_letter (c : Char) (h : (digitVal c).isSome = true) : isLetter c = false ∧ c ≠ '-' := by
  rcases digit_cases c h with rfl | rfl | rfl | rfl | rfl | rfl | rfl | rfl | rfl | rfl <;> decide

/-- The text of a dimension, from the first and last indices. -/
theorem indexText_firstLast (str : Int → List Char) (t : List Int) (a b : Int) (h : firstLast t = some (a, b)) :
    indexText str t = .ok (if str b ≠ str a then
      str a ++ (if oneLetter (str a) then [] else ['-']) ++ str b else str a) := by
  match t, h with
  | [a'], h =>
    simp only [firstLast, Option.some.injEq, Prod.mk.injEq] at h
    obtain ⟨rfl, rfl⟩ := h
    simp [indexText]
  | a' :: b' :: _, h =>
    simp only [firstLast, Option.some.injEq, Prod.mk.injEq] at h
    obtain ⟨rfl, rfl⟩ := h
    simp only [indexText]
    split <;> rfl

theorem number_not_oneLetter (s : List Char) (h : ∀ c ∈ s, (digitVal c).isSome = true) : oneLetter s = false := by
  unfold oneLetter
  cases s with
  | nil => rfl
  | cons c cs =>
    have := (digit_not_letter c (h c (by simp))).1
    simp [this]

/-- The text of a dimension of numbers: its pieces between dashes. -/
theorem number_pieces (str : Int → List Char) (ok : Int → Prop) (hf : NumberFormat str ok) (t : List Int) (a b : Int)
    (h : firstLast t = some (a, b)) (ha : ok a) (hb : ok b) :
    ∃ s, indexText str t = .ok s ∧ splitChar '-' s = (if b = a then [str a] else [str a, str b]) ∧
      ∀ c ∈ s, isLetter c = false := by
  rw [indexText_firstLast str t a b h, number_not_oneLetter _ (hf.digits a ha)]
  refine ⟨_, rfl, ?_, ?_⟩
  · by_cases he : b = a
    · subst he
      simp only [ne_eq, not_true_eq_false, if_false, if_true]
      exact splitChar_last _ _ (fun c hc => (digit_not_letter c (hf.digits b hb c hc)).2)
    · have hne : str b ≠ str a := fun hc => he (hf.inj b a hb ha hc)
      simp only [ne_eq, hne, not_false_eq_true, if_true, if_neg he, Bool.false_eq_true, if_false]
      rw [List.append_assoc, List.singleton_append,
        splitChar_piece _ _ _ (fun c hc => (digit_not_letter c (hf.digits a ha c hc)).2),
        splitChar_last _ _ (fun c hc => (digit_not_letter c (hf.digits b hb c hc)).2)]
  · intro c hc
    split at hc
    · simp only [Bool.false_eq_true, if_false, List.mem_append, List.mem_singleton] at hc
      rcases hc with (hc | rfl) | hc
      · exact (digit_not_letter c (hf.digits a ha c hc)).1
      · decide
      · exact (digit_not_letter c (hf.digits b hb c hc)).1
    · exact (digit_not_letter c (hf.digits a ha c hc)).1

theorem number_decode (str : Int → List Char) (ok : Int → Prop) (hf : NumberFormat str ok) (t t' : List Int)
    (ht : ValidTuple ok t) (ht' : ValidTuple ok t') (h : indexText str t = indexText str t') :
    firstLast t = firstLast t' := by
  obtain ⟨a, b, e, ha, hb⟩ := ht
  obtain ⟨a', b', e', ha', hb'⟩ := ht'
  obtain ⟨s, h1, h2, _⟩ := number_pieces str ok hf t a b e ha hb
  obtain ⟨s', h1', h2', _⟩ := number_pieces str ok hf t' a' b' e' ha' hb'
  rw [h1, h1'] at h
  cases h
  rw [h2] at h2'
  rw [e, e']
  by_cases hba : b = a <;> by_cases hba' : b' = a'
  · rw [if_pos hba, if_pos hba'] at h2'
    simp only [List.cons.injEq, and_true] at h2'
    have := hf.inj a a' ha ha' h2'
    rw [hba, hba', this]
  · rw [if_pos hba, if_neg hba'] at h2'; simp at h2'
  · rw [if_neg hba, if_pos hba'] at h2'; simp at h2'
  · rw [if_neg hba, if_neg hba'] at h2'
    simp only [List.cons.injEq, and_true] at h2'
    rw [hf.inj a a' ha ha' h2'.1, hf.inj b b' hb hb' h2'.2]

theorem letter_text (str : Int → List Char) (ok : Int → Prop) (hf : LetterFormat str ok) (t : List Int) (a b : Int)
    (h : firstLast t = some (a, b)) (ha : ok a) (hb : ok b) :
    indexText str t = .ok (if b = a then str a else str a ++ str b) := by
  rw [indexText_firstLast str t a b h]
  obtain ⟨c, hc, hl⟩ := hf.letter a ha
  have h1 : oneLetter (str a) = true := by rw [hc]; simp [oneLetter, hl]
  rw [h1]
  by_cases he : b = a
  · subst he; simp
  · have hne : str b ≠ str a := fun hc => he (hf.inj b a hb ha hc)
    simp [hne, he]

theorem letter_decode (str : Int → List Char) (ok : Int → Prop) (hf : LetterFormat str ok) (t t' : List Int)
    (ht : ValidTuple ok t) (ht' : ValidTuple ok t') (h : indexText str t = indexText str t') :
    firstLast t = firstLast t' := by
  obtain ⟨a, b, e, ha, hb⟩ := ht
  obtain ⟨a', b', e', ha', hb'⟩ := ht'
  rw [letter_text str ok hf t a b e ha hb, letter_text str ok hf t' a' b' e' ha' hb'] at h
  obtain ⟨c, hc, _⟩ := hf.letter a ha
  obtain ⟨d, hd, _⟩ := hf.letter b hb
  obtain ⟨c', hc', _⟩ := hf.letter a' ha'
  obtain ⟨d', hd', _⟩ := hf.letter b' hb'
  rw [e, e']
  by_cases hba : b = a <;> by_cases hba' : b' = a'
  · rw [if_pos hba, if_pos hba'] at h
    simp only [Except.ok.injEq] at h
    have := hf.inj a a' ha ha' h
    rw [hba, hba', this]
  · rw [if_pos hba, if_neg hba', hc, hc', hd'] at h; simp at h
  · rw [if_neg hba, if_pos hba', hc, hc', hd] at h; simp at h
  · rw [if_neg hba, if_neg hba', hc, hc', hd, hd'] at h
    simp only [List.cons_append, List.nil_append, Except.ok.injEq, List.cons.injEq, and_true] at h
    rw [hf.inj a a' ha ha' (by rw [hc, hc', h.1]), hf.inj b b' hb hb' (by rw [hd, hd', h.2])]

/-- C46 for series with one index (number or letter): couples or subsets whose names of PIV files are the same have
the same first and last images. -/
theorem C46_one_index (pfx : List Char) (str : Nat → Int → List Char) (seps : List (List Char)) (ok : Int → Prop)
    (hf : NumberFormat (str 0) ok ∨ LetterFormat (str 0) ok) (t t' : List Int) (ht : ValidTuple ok t)
    (ht' : ValidTuple ok t') (h : namePiv pfx str seps [t] = namePiv pfx str seps [t']) :
    firstLast t = firstLast t' := by
  have key : indexText (str 0) t = indexText (str 0) t' := by
    have e : ∀ t, ValidTuple ok t → ∃ s, indexText (str 0) t = .ok s := by
      intro t ⟨a, b, e, _, _⟩; exact ⟨_, indexText_firstLast (str 0) t a b e⟩
    obtain ⟨s, hs⟩ := e t ht
    obtain ⟨s', hs'⟩ := e t' ht'
    rw [hs, hs']
    simp only [namePiv, indicesText, sepOf, hs, hs', show ¬ (0 > 1) by omega, if_false, List.nil_append, List.append_nil,
      Except.ok.injEq, List.append_assoc] at h
    have h := List.append_cancel_left h
    have h := List.append_cancel_left h
    rw [List.append_cancel_right h]
  rcases hf with hf | hf
  · exact number_decode _ _ hf t t' ht ht' key
  · exact letter_decode _ _ hf t t' ht ht' key

/-- C46 for series with a number and a letter (`im_01a.png`): same result. -/
theorem C46_number_letter (pfx : List Char) (str : Nat → Int → List Char) (seps : List (List Char))
    (ok0 ok1 : Int → Prop) (hf0 : NumberFormat (str 0) ok0) (hf1 : LetterFormat (str 1) ok1)
    (t u t' u' : List Int) (ht : ValidTuple ok0 t) (ht' : ValidTuple ok0 t') (hu : ValidTuple ok1 u)
    (hu' : ValidTuple ok1 u') (h : namePiv pfx str seps [t, u] = namePiv pfx str seps [t', u']) :
    firstLast t = firstLast t' ∧ firstLast u = firstLast u' := by
  obtain ⟨a, b, e, ha, hb⟩ := id ht
  obtain ⟨a', b', e', ha', hb'⟩ := id ht'
  obtain ⟨s, h1, _, h3⟩ := number_pieces (str 0) ok0 hf0 t a b e ha hb
  obtain ⟨s', h1', _, h3'⟩ := number_pieces (str 0) ok0 hf0 t' a' b' e' ha' hb'
  have letters : ∀ u, ValidTuple ok1 u → ∃ w, indexText (str 1) u = .ok w ∧ ∀ c ∈ w, isLetter c = true := by
    intro u ⟨a, b, e, ha, hb⟩
    refine ⟨_, letter_text (str 1) ok1 hf1 u a b e ha hb, ?_⟩
    obtain ⟨c, hc, hcl⟩ := hf1.letter a ha
    obtain ⟨d, hd, hdl⟩ := hf1.letter b hb
    rw [hc, hd]
    intro x hx
    split at hx
    · simp only [List.mem_singleton] at hx; rw [hx]; exact hcl
    · simp only [List.mem_append, List.mem_singleton] at hx
      rcases hx with rfl | rfl
      · exact hcl
      · exact hdl
  obtain ⟨w, hw, hwl⟩ := letters u hu
  obtain ⟨w', hw', hwl'⟩ := letters u' hu'
  simp only [namePiv, indicesText, sepOf, h1, h1', hw, hw', show ¬ (0 > 1) by omega, show ¬ (0 + 1 > 1) by omega,
    if_false, List.nil_append, List.append_nil, Except.ok.injEq, List.append_assoc] at h
  have h := List.append_cancel_left h
  have h := List.append_cancel_left h
  rw [← List.append_assoc, ← List.append_assoc] at h
  have hsw : s ++ w = s' ++ w' := List.append_cancel_right h
  have split : ∀ (s w : List Char), (∀ c ∈ s, isLetter c = false) → (∀ c ∈ w, isLetter c = true) →
      (s ++ w).filter (fun c => !isLetter c) = s ∧ (s ++ w).filter isLetter = w := by
    intro s w hs hw
    rw [List.filter_append, List.filter_append]
    refine ⟨?_, ?_⟩
    · rw [List.filter_eq_self.2 (fun c hc => by simp [hs c hc]),
        List.filter_eq_nil_iff.2 (fun c hc => by simp [hw c hc]), List.append_nil]
    · rw [List.filter_eq_nil_iff.2 (fun c hc => by simp [hs c hc]),
        List.filter_eq_self.2 (fun c hc => by simp [hw c hc]), List.nil_append]
  obtain ⟨p1, p2⟩ := split s w h3 hwl
  obtain ⟨q1, q2⟩ := split s' w' h3' hwl'
  rw [hsw] at p1 p2
  refine ⟨number_decode _ _ hf0 t t' ht ht' ?_, letter_decode _ _ hf1 u u' hu hu' ?_⟩
  · rw [h1, h1', ← p1, q1]
  · rw [hw, hw', ← p2, q2]

/-- Numbers without leading zeros, letters a, b, c, … -/
def strExample (d : Nat) (i : Int) : List Char := if d = 1 then [Char.ofNat (97 + i.toNat)] else natStr i.toNat

example : NumberFormat (strExample 0) (fun i => 0 ≤ i) := by
  refine ⟨?_, ?_⟩
  · intro i _ c hc; exact natStr_digits _ c hc
  · intro i j hi hj h
    have := natStr_injective _ _ h
    omega

example : LetterFormat (strExample 1) (fun i => 0 ≤ i ∧ i < 3) := by
  have hc : ∀ i : Int, 0 ≤ i → i < 3 → i = 0 ∨ i = 1 ∨ i = 2 := by omega
  refine ⟨?_, ?_⟩
  · rintro i ⟨h1, h2⟩
    rcases hc i h1 h2 with rfl | rfl | rfl
    · exact ⟨'a', by decide⟩
    · exact ⟨'b', by decide⟩
    · exact ⟨'c', by decide⟩
  · rintro i j ⟨h1, h2⟩ ⟨h3, h4⟩
    rcases hc i h1 h2 with rfl | rfl | rfl <;> rcases hc j h3 h4 with rfl | rfl | rfl <;> decide

example : ValidTuple (fun i => 0 ≤ i) [3, 6] := ⟨3, 5, rfl, by omega, by omega⟩

/-- C46 fails for series with two numbers: the image 1, 11 and the image 11, 1 of the same serie have the same
name of PIV file (nothing is put between the two indices). -/
theorem C46_two_numbers_fails (pfx : List Char) (seps : List (List Char)) :
    namePiv pfx (fun _ i => natStr i.toNat) seps [[1], [11]] = namePiv pfx (fun _ i => natStr i.toNat) seps [[11], [1]] := by
  have h1 : natStr 1 = ['1'] := by rw [natStr]; rfl
  have h11 : natStr 11 = ['1', '1'] := by rw [natStr]; simp only [show ¬ 11 < 10 by omega, if_false]; rw [h1]; rfl
  simp [namePiv, indicesText, sepOf, indexText, h1, h11]

/-- C46 fails for subsets with a step: the name does not depend on it. -/
theorem C46_step_fails (pfx : List Char) (str : Nat → Int → List Char) (seps : List (List Char)) (a b s s' : Int) :
    namePiv pfx str seps [[a, b, s]] = namePiv pfx str seps [[a, b, s']] := rfl

/-! ## Names of BOS results -/

/-- C46: the names of the BOS results of two images of the same serie are different. -/
theorem C46_bos (base mid mid' : List Char) (ext : List Char)
    (h : nameBos (base ++ mid ++ ['.'] ++ ext) base (some ext) = nameBos (base ++ mid' ++ ['.'] ++ ext) base (some ext)) :
    mid = mid' := by
  have e : ∀ mid : List Char, nameBos (base ++ mid ++ ['.'] ++ ext) base (some ext)
      = "bos".toList ++ (mid ++ ".h5".toList) := by
    intro mid
    have e1 : (base ++ mid ++ ['.'] ++ ext).drop base.length = mid ++ ('.' :: ext) := by
      rw [List.append_assoc, List.append_assoc, List.drop_left]; simp
    have e2 : dropLastN (ext.length + 1) (mid ++ ('.' :: ext)) = mid := by
      unfold dropLastN
      rw [show (mid ++ ('.' :: ext)).length - (ext.length + 1) = mid.length by simp, List.take_left]
    unfold nameBos
    simp only [e1, e2]
    rw [List.append_assoc]
  rw [e, e] at h
  exact List.append_cancel_right (List.append_cancel_left h)

example : nameBos "im_0012.png".toList "im".toList (some "png".toList) = "bos_0012.h5".toList := by decide

/-! ## Names of preprocessed images -/

/-- `nameIndex` inside a window of `n = ni * nj` files. -/
theorem nameIndex_range (ni nj : Nat) (hi : 1 ≤ ni) (hj : 1 ≤ nj) :
    0 ≤ (indMiddle ni nj).1 ∧ (indMiddle ni nj).1 < ni * nj := by
  have h1 : (ni : Int) / 2 * nj ≤ ni * nj - nj := by
    have : (ni : Int) / 2 ≤ ni - 1 := by omega
    have h2 := Int.mul_le_mul_of_nonneg_right this (show (0 : Int) ≤ nj by omega)
    have h3 : ((ni : Int) - 1) * nj = ni * nj - nj := by rw [Int.sub_mul, Int.one_mul]
    omega
  have h0 : 0 ≤ (ni : Int) / 2 * nj := Int.mul_nonneg (by omega) (by omega)
  unfold indMiddle
  simp only
  split
  · rename_i hev
    have : (1 : Int) ≤ (ni : Int) / 2 := by omega
    have h2 := Int.mul_le_mul_of_nonneg_right this (show (0 : Int) ≤ nj by omega)
    omega
  · omega

theorem item_window {β : Type} (file : Nat → β) (start n : Nat) (i : Int) (h : 0 ≤ i ∧ i < n) :
    item ((List.range n).map (fun j => file (start + j))) i = .ok (file (start + i.toNat)) := by
  unfold item
  have h1 : ¬ i < 0 := by omega
  have h2 : i.toNat < n := by omega
  simp only [h1, if_false]
  rw [List.getElem?_map, List.getElem?_range h2]
  rfl

theorem item_window_last {β : Type} (file : Nat → β) (start n : Nat) (h : 1 ≤ n) :
    item ((List.range n).map (fun j => file (start + j))) (-1) = .ok (file (start + (n - 1))) := by
  unfold item
  have h1 : (-1 : Int) < 0 := by omega
  simp only [h1, if_true, List.length_map, List.length_range]
  have e : (-1 + (n : Int)).toNat = n - 1 := by omega
  rw [if_neg (by omega), e, List.getElem?_map, List.getElem?_range (by omega)]
  rfl

/-- C46: the windows of a sliding series (the windows start at increasing images, `ni * nj` images each): the
names given to their results by `get_name_preproc` are names of images of the windows and they are all different,
for the format of the images and for the other formats (files that differ by something else than their
extensions). -/
theorem C46_preproc (file : Nat → List Char) (fmt : Option (List Char))
    (hinj : ∀ i j, (match fmt with | none => file i = file j | some _ => stem (file i) = stem (file j)) → i = j)
    (ni nj nb : Nat) (hi : 1 ≤ ni) (hj : 1 ≤ nj) (start : Nat → Nat) (hs : ∀ k k', k < k' → start k < start k')
    (k k' : Nat) (hk : k < nb) (hk' : k' < nb) (hne : k ≠ k') :
    ∃ n n', namePreproc ni nj ((List.range (ni * nj)).map (fun j => file (start k + j))) k nb fmt = .ok n ∧
      namePreproc ni nj ((List.range (ni * nj)).map (fun j => file (start k' + j))) k' nb fmt = .ok n' ∧ n ≠ n' := by
  obtain ⟨hm0, hm1⟩ := nameIndex_range ni nj hi hj
  have hn1 : 1 ≤ ni * nj := Nat.mul_pos hi hj
  have hcast : ((ni * nj : Nat) : Int) = ni * nj := by push_cast; rfl
  have pos : ∀ k, k < nb → ∃ p, (namePreproc ni nj ((List.range (ni * nj)).map (fun j => file (start k + j))) k nb fmt
      = match fmt with | none => .ok (file p) | some ext => .ok (stem (file p) ++ ['.'] ++ ext)) ∧
      start k + (indMiddle ni nj).1.toNat ≤ p ∧ (k + 1 < nb → p = start k + (indMiddle ni nj).1.toNat) := by
    intro k hk
    by_cases hlast : k + 1 = nb
    · have e : nameIndex ni nj k nb = -1 := by
        unfold nameIndex
        by_cases h0 : k = 0 ∧ nb = 1
        · rw [if_pos h0]
        · rw [if_neg h0, if_neg (by omega), if_pos (by omega)]
      refine ⟨start k + (ni * nj - 1), ?_, by omega, by omega⟩
      unfold namePreproc
      rw [e, item_window_last _ _ _ hn1]
      cases fmt <;> rfl
    · have e : nameIndex ni nj k nb = (indMiddle ni nj).1 := by
        unfold nameIndex
        rw [if_neg (by omega)]
        by_cases h0 : k = 0
        · rw [if_pos h0]
        · rw [if_neg h0, if_neg (by omega)]
      refine ⟨start k + (indMiddle ni nj).1.toNat, ?_, Nat.le_refl _, fun _ => rfl⟩
      unfold namePreproc
      rw [e, item_window _ _ _ _ ⟨hm0, by omega⟩]
      cases fmt <;> rfl
  obtain ⟨p, e, h1, h2⟩ := pos k hk
  obtain ⟨p', e', h1', h2'⟩ := pos k' hk'
  have hpp : p ≠ p' := by
    rcases Nat.lt_or_gt_of_ne hne with h | h
    · have := hs k k' h
      have := h2 (by omega)
      omega
    · have := hs k' k h
      have := h2' (by omega)
      omega
  cases fmt with
  | none =>
    refine ⟨_, _, e, e', ?_⟩
    intro hc; exact hpp (hinj p p' hc)
  | some ext =>
    refine ⟨_, _, e, e', ?_⟩
    intro hc
    rw [List.append_assoc, List.append_assoc] at hc
    exact hpp (hinj p p' (List.append_cancel_right hc))

/-- Windows of three images of a series. -/
example : namePreproc 3 1 ["im0.png".toList, "im1.png".toList, "im2.png".toList] 0 4 none = .ok "im1.png".toList ∧
    namePreproc 3 1 ["im3.png".toList, "im4.png".toList, "im5.png".toList] 3 4 (some "h5".toList)
      = .ok "im5.h5".toList := by decide

/-! ## Size of the windows, extensions -/

/-- C46: the sizes used to find the middle of a window are the numbers of images in the directions of the indices, for windows
without step: one index (2 slicing bounds), two indices, or two indices with a single value of the second one. -/
theorem C46_window_size (a b c d : Int) (hab : a ≤ b) (hcd : c ≤ d) :
    getNiNj 1 [[a, b]] = .ok (((pyRange a b 1).length : Int), 1) ∧
    getNiNj 2 [[a, b], [c, d]] = .ok (((pyRange a b 1).length : Int), ((pyRange c d 1).length : Int)) ∧
    getNiNj 2 [[a, b], [c]] = .ok (((pyRange a b 1).length : Int), 1) := by
  have h : ∀ a b : Int, a ≤ b → ((pyRange a b 1).length : Int) = b - a := by
    intro a b hab
    simp only [pyRange, List.length_map, List.length_range, rangeLen]
    simp only [show (0 : Int) < 1 by decide, if_true]
    split <;> omega
  rw [h a b hab, h c d hcd]
  exact ⟨rfl, rfl, rfl⟩

example : getNiNj 2 [[3, 8, 1], [0, 2, 1]] = .ok (5, 2) := by decide

/-- C46 (the code violates the property): the step of the indices is ignored: for a window of 2 images with indices `0:10:5`, the index of
the middle image does not exist. -/
theorem C46_window_step_fails :
    getNiNj 1 [[0, 10, 5]] = .ok (10, 1) ∧ (pyRange 0 10 5).length = 2 ∧
    ∀ (f0 f1 : List Char) (fmt : Option (List Char)), namePreproc 10 1 [f0, f1] 0 3 fmt = .error .indexError := by
  refine ⟨by decide, by decide, ?_⟩
  intro f0 f1 fmt
  rfl

/-- C46: the extension of the name of an image is replaced: what is before the last dot is kept; names without extension and names
which begin with their only dots are kept. -/
theorem C46_stem (root ext : List Char) (hext : '.' ∉ ext) :
    ((∃ c ∈ root, c ≠ '.') → stem (root ++ '.' :: ext) = root) ∧
    ((∀ c ∈ root, c = '.') → stem (root ++ '.' :: ext) = root ++ '.' :: ext) ∧
    stem ext = ext := by
  have htake : ∀ (l : List Char) (r : List Char), '.' ∉ l → (l ++ '.' :: r).takeWhile (· ≠ '.') = l := by
    intro l r h
    induction l with
    | nil => simp
    | cons x l ih =>
      have hx : x ≠ '.' := fun h' => h (by simp [h'])
      rw [List.cons_append, List.takeWhile_cons]
      simp only [hx, ne_eq, not_false_eq_true, decide_true, if_true]
      rw [ih fun h' => h (List.mem_cons_of_mem _ h')]
  have hrev : (root ++ '.' :: ext).reverse = ext.reverse ++ '.' :: root.reverse := by simp
  have hext' : '.' ∉ ext.reverse := by simpa using hext
  have hroot : ((ext.reverse ++ '.' :: root.reverse).drop (ext.reverse.length + 1)).reverse = root := by
    rw [List.drop_append, List.drop_eq_nil_of_le (by omega)]
    simp
  refine ⟨?_, ?_, ?_⟩
  · rintro ⟨c, hc, hne⟩
    unfold stem
    simp only
    rw [hrev, htake _ _ hext', if_neg (by simp), hroot, if_neg]
    intro hall
    have := List.all_eq_true.1 hall c hc
    simp only [beq_iff_eq] at this
    exact hne this
  · intro hall
    unfold stem
    simp only
    rw [hrev, htake _ _ hext', if_neg (by simp), hroot, if_pos]
    rw [List.all_eq_true]
    intro c hc
    simp [hall c hc]
  · unfold stem
    simp only
    have : ∀ l : List Char, '.' ∉ l → l.takeWhile (· ≠ '.') = l := by
      intro l h
      induction l with
      | nil => rfl
      | cons x l ih =>
        have hx : x ≠ '.' := fun h' => h (by simp [h'])
        rw [List.takeWhile_cons]
        simp only [hx, ne_eq, not_false_eq_true, decide_true, if_true]
        rw [ih fun h' => h (List.mem_cons_of_mem _ h')]
    rw [this _ hext', if_pos rfl]

example : stem "im.0.png".toList = "im.0".toList ∧ stem ".png".toList = ".png".toList ∧ stem "im".toList = "im".toList := by decide

end Verif
