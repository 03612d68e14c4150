import Verif.Py.Text

namespace Verif.Text
open Verif

theorem digitVal_digitChar (d : Nat) (h : d < 10) : digitVal (digitChar d) = some d := by
  have : d = 0 ∨ d = 1 ∨ d = 2 ∨ d = 3 ∨ d = 4 ∨ d = 5 ∨ d = 6 ∨ d = 7 ∨ d = 8 ∨ d = 9 := by omega
  rcases this with rfl | rfl | rfl | rfl | rfl | rfl | rfl | rfl | rfl | rfl <;> decide

/-- The characters that occur in the text of an integer. -/
def isNumChar (c : Char) : Bool := c == '-' || (digitVal c).isSome

theorem digitChar_isDigit (d : Nat) (h : d < 10) : (digitVal (digitChar d)).isSome = true := by
  rw [digitVal_digitChar d h]; rfl

theorem natStr_ne_nil (n : Nat) : natStr n ≠ [] := by
  unfold natStr; split <;> simp

theorem natStr_digits (n : Nat) : ∀ c ∈ natStr n, (digitVal c).isSome = true := by
  induction n using Nat.strongRecOn with
  | ind n ih =>
    intro c hc
    unfold natStr at hc
    split at hc
    · rename_i h
      simp only [List.mem_singleton] at hc
      subst hc; exact digitChar_isDigit n h
    · rename_i h
      rw [List.mem_append] at hc
      rcases hc with hc | hc
      · exact ih (n / 10) (by omega) c hc
      · simp only [List.mem_singleton] at hc
        subst hc; exact digitChar_isDigit _ (by omega)

theorem digitsVal_append (acc : Nat) (a b : List Char) :
    digitsVal acc (a ++ b) = (digitsVal acc a).bind (fun v => digitsVal v b) := by
  induction a generalizing acc with
  | nil => rfl
  | cons c cs ih =>
    simp only [List.cons_append, digitsVal]
    cases digitVal c with
    | none => rfl
    | some d => exact ih _

theorem digitsVal_natStr (n : Nat) : digitsVal 0 (natStr n) = some n := by
  induction n using Nat.strongRecOn with
  | ind n ih =>
    unfold natStr
    split
    · rename_i h
      simp [digitsVal, digitVal_digitChar n h]
    · rename_i h
      rw [digitsVal_append, ih (n / 10) (by omega)]
      simp only [Option.bind_some, digitsVal, digitVal_digitChar (n % 10) (by omega)]
      congr 1; omega

theorem parseNat_natStr (n : Nat) : parseNat (natStr n) = .ok n := by
  unfold parseNat
  have : (natStr n).isEmpty = false := by simp [natStr_ne_nil]
  rw [this, digitsVal_natStr]; simp

theorem intStr_ne_nil (i : Int) : intStr i ≠ [] := by
  unfold intStr; split
  · simp
  · exact natStr_ne_nil _

theorem intStr_chars (i : Int) : ∀ c ∈ intStr i, isNumChar c = true := by
  intro c hc
  unfold intStr at hc
  unfold isNumChar
  split at hc
  · rw [List.mem_cons] at hc
    rcases hc with rfl | hc
    · rfl
    · rw [natStr_digits _ c hc]; simp
  · rw [natStr_digits _ c hc]; simp

theorem digit_cases (c : Char) (h : (digitVal c).isSome = true) :
    c = '0' ∨ c = '1' ∨ c = '2' ∨ c = '3' ∨ c = '4' ∨ c = '5' ∨ c = '6' ∨ c = '7' ∨ c = '8' ∨ c = '9' := by
  unfold digitVal at h
  split at h
  · rename_i hc
    have e : ∀ k : Nat, c.toNat = k → c = Char.ofNat k := by
      intro k hk; rw [← hk]; exact (Char.ofNat_toNat c).symm
    have : c.toNat = 48 ∨ c.toNat = 49 ∨ c.toNat = 50 ∨ c.toNat = 51 ∨ c.toNat = 52 ∨ c.toNat = 53 ∨
      c.toNat = 54 ∨ c.toNat = 55 ∨ c.toNat = 56 ∨ c.toNat = 57 := by omega
    rcases this with h | h | h | h | h | h | h | h | h | h <;> have := e _ h <;> simp [this] <;> decide
  · simp at h

theorem numChar_facts (c : Char) (h : isNumChar c = true) :
    isSpace c = false ∧ c ≠ ',' ∧ c ≠ '\n' ∧ c ≠ '+' := by
  unfold isNumChar at h
  simp only [Bool.or_eq_true, beq_iff_eq] at h
  rcases h with rfl | h
  · decide
  · rcases digit_cases c h with rfl | rfl | rfl | rfl | rfl | rfl | rfl | rfl | rfl | rfl <;> decide

theorem dropWhile_eq_self_of_head {p : Char → Bool} (c : Char) (cs : List Char) (h : p c = false) :
    (c :: cs).dropWhile p = c :: cs := by
  simp [List.dropWhile, h]

theorem dropWhile_all {p : Char → Bool} (ws s : List Char) (h : ∀ c ∈ ws, p c = true) :
    (ws ++ s).dropWhile p = s.dropWhile p := by
  induction ws with
  | nil => rfl
  | cons c cs ih =>
    simp only [List.cons_append, List.dropWhile, h c (by simp)]
    exact ih (fun c hc => h c (by simp [hc]))

/-- Stripping white space around a text whose end characters are not white space. -/
theorem strip_pad (ws1 ws2 s : List Char) (h1 : ∀ c ∈ ws1, isSpace c = true)
    (h2 : ∀ c ∈ ws2, isSpace c = true) (hs : s ≠ [])
    (hf : isSpace (s.head hs) = false) (hl : isSpace (s.getLast hs) = false) :
    strip (ws1 ++ s ++ ws2) = s := by
  unfold strip
  rw [List.append_assoc, dropWhile_all _ _ h1]
  cases s with
  | nil => exact absurd rfl hs
  | cons a as =>
    have hf' : isSpace a = false := hf
    rw [List.cons_append, dropWhile_eq_self_of_head _ _ hf']
    rw [← List.cons_append, List.reverse_append, dropWhile_all _ _ (by simpa using h2)]
    have hrev : (a :: as).reverse ≠ [] := by simp
    obtain ⟨b, bs, hb⟩ : ∃ b bs, (a :: as).reverse = b :: bs := by
      cases h : (a :: as).reverse with
      | nil => exact absurd h hrev
      | cons b bs => exact ⟨b, bs, rfl⟩
    have hbl : (a :: as).getLast hs = b := by
      have h3 : (a :: as) = (b :: bs).reverse := by rw [← hb, List.reverse_reverse]
      have h4 : (a :: as).getLast? = some b := by rw [h3]; simp
      rw [List.getLast?_eq_some_getLast hs] at h4
      exact Option.some.inj h4
    rw [hbl] at hl
    rw [hb, dropWhile_eq_self_of_head _ _ hl, ← hb, List.reverse_reverse]

theorem strip_intStr_pad (ws1 ws2 : List Char) (i : Int) (h1 : ∀ c ∈ ws1, isSpace c = true)
    (h2 : ∀ c ∈ ws2, isSpace c = true) : strip (ws1 ++ intStr i ++ ws2) = intStr i := by
  apply strip_pad _ _ _ h1 h2 (intStr_ne_nil i)
  · exact (numChar_facts _ (intStr_chars i _ (List.head_mem _))).1
  · exact (numChar_facts _ (intStr_chars i _ (List.getLast_mem _))).1

theorem pyInt_of_strip (s : List Char) (i : Int) (h : strip s = intStr i) : pyInt s = .ok i := by
  unfold pyInt
  rw [h]
  unfold intStr
  by_cases hi : i < 0
  · rw [if_pos hi]
    simp only [parseNat_natStr, Except.map]
    have : -((i.natAbs : Nat) : Int) = i := by omega
    rw [this]
  · rw [if_neg hi]
    have hp := parseNat_natStr i.natAbs
    have hd := natStr_digits i.natAbs
    cases hn : natStr i.natAbs with
    | nil => exact absurd hn (natStr_ne_nil _)
    | cons c cs =>
      rw [hn] at hp hd
      have hc := digit_cases c (hd c (by simp))
      have e : (Except.ok i.natAbs : Except PyErr Nat).map (fun n : Nat => (n : Int)) = .ok i := by
        have : ((i.natAbs : Nat) : Int) = i := by omega
        simp only [Except.map]; rw [this]
      split
      · rename_i h; cases h; rcases hc with h | h | h | h | h | h | h | h | h | h <;> cases h
      · rename_i h; cases h; rcases hc with h | h | h | h | h | h | h | h | h | h <;> cases h
      · rw [hp]; exact e

/-- `int(" \t" + str(i) + "\n") == i`. -/
theorem pyInt_pad (ws1 ws2 : List Char) (i : Int) (h1 : ∀ c ∈ ws1, isSpace c = true)
    (h2 : ∀ c ∈ ws2, isSpace c = true) : pyInt (ws1 ++ intStr i ++ ws2) = .ok i :=
  pyInt_of_strip _ _ (strip_intStr_pad _ _ _ h1 h2)

theorem fileLines_line (s rest : List Char) (h : ∀ c ∈ s, c ≠ '\n') :
    fileLines (s ++ '\n' :: rest) = (s ++ ['\n']) :: fileLines rest := by
  induction s with
  | nil => simp [fileLines]
  | cons c cs ih =>
    have hc : (c == '\n') = false := by simpa using h c (by simp)
    simp only [List.cons_append, fileLines, hc, Bool.false_eq_true, if_false]
    rw [ih (fun c hc => h c (by simp [hc]))]

/-- Lines written with `"\n".join(lines) + "\n"` are read back one by one. -/
theorem fileLines_join (strs : List (List Char)) (hne : strs ≠ []) (h : ∀ s ∈ strs, ∀ c ∈ s, c ≠ '\n') :
    fileLines (join ['\n'] strs ++ ['\n']) = strs.map (· ++ ['\n']) := by
  induction strs with
  | nil => exact absurd rfl hne
  | cons s ss ih =>
    cases ss with
    | nil =>
      simp only [join, List.map_cons, List.map_nil]
      rw [fileLines_line _ _ (h s (by simp))]; rfl
    | cons t ts =>
      have e : join ['\n'] (s :: t :: ts) ++ ['\n'] = s ++ '\n' :: (join ['\n'] (t :: ts) ++ ['\n']) := by
        simp [join]
      rw [e, fileLines_line _ _ (h s (by simp)), ih (by simp) (fun s' hs' => h s' (by simp [hs']))]
      rfl

theorem splitChar_ne_nil (sep : Char) (s : List Char) : splitChar sep s ≠ [] := by
  cases s with
  | nil => simp [splitChar]
  | cons c cs =>
    unfold splitChar
    split
    · simp
    · split <;> simp

theorem splitChar_piece (sep : Char) (s rest : List Char) (h : ∀ c ∈ s, c ≠ sep) :
    splitChar sep (s ++ sep :: rest) = s :: splitChar sep rest := by
  induction s with
  | nil => simp [splitChar]
  | cons c cs ih =>
    have hc : (c == sep) = false := by simpa using h c (by simp)
    simp only [List.cons_append, splitChar, hc, Bool.false_eq_true, if_false]
    rw [ih (fun c hc => h c (by simp [hc]))]

theorem splitChar_last (sep : Char) (s : List Char) (h : ∀ c ∈ s, c ≠ sep) :
    splitChar sep s = [s] := by
  induction s with
  | nil => simp [splitChar]
  | cons c cs ih =>
    have hc : (c == sep) = false := by simpa using h c (by simp)
    simp only [splitChar, hc, Bool.false_eq_true, if_false]
    rw [ih (fun c hc => h c (by simp [hc]))]

/-- Splitting `", ".join(parts)` at commas: the first part, then the others preceded by a space. -/
theorem splitChar_join_comma (p : List Char) (ps : List (List Char))
    (h : ∀ s ∈ p :: ps, ∀ c ∈ s, c ≠ ',') :
    splitChar ',' (join [',', ' '] (p :: ps)) = p :: ps.map (' ' :: ·) := by
  -- generalised over the first character of the first part
  suffices H : ∀ (ps : List (List Char)) (p : List Char), (∀ c ∈ p, c ≠ ',') →
      (∀ s ∈ ps, ∀ c ∈ s, c ≠ ',') →
      splitChar ',' (p ++ (ps.flatMap (fun q => [',', ' '] ++ q))) = p :: ps.map (' ' :: ·) by
    have e : ∀ (ps : List (List Char)) (p : List Char),
        join [',', ' '] (p :: ps) = p ++ ps.flatMap (fun q => [',', ' '] ++ q) := by
      intro ps
      induction ps with
      | nil => intro p; simp [join]
      | cons q qs ih => intro p; simp only [join, ih q, List.flatMap_cons]; simp
    rw [e]
    exact H ps p (h p (by simp)) (fun s hs => h s (by simp [hs]))
  intro ps
  induction ps with
  | nil => intro p hp _; simpa using splitChar_last ',' p hp
  | cons q qs ih =>
    intro p hp hq
    have e : p ++ (q :: qs).flatMap (fun q => [',', ' '] ++ q)
        = p ++ ',' :: ((' ' :: q) ++ qs.flatMap (fun q => [',', ' '] ++ q)) := by
      simp
    rw [e, splitChar_piece _ _ _ hp, ih (' ' :: q) ?_ (fun s hs => hq s (by simp [hs]))]
    · rfl
    · intro c hc
      rw [List.mem_cons] at hc
      rcases hc with rfl | hc
      · decide
      · exact hq q (by simp) c hc

end Verif.Text
