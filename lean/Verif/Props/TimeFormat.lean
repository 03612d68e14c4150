import Verif.Model.TimeFormat
import Verif.Lemmas.Text
import Mathlib.Tactic.Linarith
import Mathlib.Tactic.NormNum

/-!
# Formatting of durations (C61)
-/

namespace Verif
open Verif.Text Verif.TimeFormat

theorem parseNat_pad2 (n : Nat) : parseNat (pad2 n) = .ok n := by
  unfold pad2
  split
  · unfold parseNat
    rw [if_neg (by simp)]
    have h : digitsVal 0 ('0' :: natStr n) = digitsVal 0 (natStr n) := rfl
    rw [h, digitsVal_natStr]
  · exact parseNat_natStr n

theorem pad2_digits (n : Nat) : ∀ c ∈ pad2 n, (digitVal c).isSome = true := by
  unfold pad2
  intro c hc
  split at hc
  · rcases List.mem_cons.1 hc with rfl | hc
    · decide
    · exact natStr_digits n c hc
  · exact natStr_digits n c hc

theorem natStr_length_one (n : Nat) (h : n < 10) : (natStr n).length = 1 := by
  rw [natStr, if_pos h]; rfl

theorem pad2_length (n : Nat) (h : n < 100) : (pad2 n).length = 2 := by
  unfold pad2
  split
  · rename_i h1; simp [natStr_length_one n h1]
  · rename_i h1
    rw [natStr, if_neg h1]
    rw [List.length_append, natStr_length_one _ (by omega)]; rfl

theorem pad2_no_colon (n : Nat) : ∀ c ∈ pad2 n, c ≠ ':' := by
  intro c hc e
  subst e
  have := pad2_digits n _ hc
  revert this; decide

/-- C61 for durations of at least one minute: the text is `hours:minutes:seconds`, minutes and seconds are two-digit
numbers smaller than 60, and the text gives back the number of whole seconds. -/
theorem C61_hours_minutes_seconds (d : ℚ) (hd : 60 ≤ d) :
    ∃ (H M S : List Char) (h m s : Nat), splitChar ':' (formatTime d) = [H, M, S] ∧
      parseNat H = .ok h ∧ parseNat M = .ok m ∧ parseNat S = .ok s ∧ m < 60 ∧ s < 60 ∧ M.length = 2 ∧ S.length = 2 ∧
      ((3600 * h + 60 * m + s : Nat) : Int) = ⌊d⌋ := by
  unfold formatTime
  rw [if_neg (by linarith)]
  simp only
  generalize hh : ⌊d / 3600⌋ = h
  generalize hm : ⌊(d - 3600 * h) / 60⌋ = m
  generalize hs : ⌊d - 3600 * h - 60 * m⌋ = s
  obtain ⟨h1, h2⟩ := Int.floor_eq_iff.1 hh
  obtain ⟨m1, m2⟩ := Int.floor_eq_iff.1 hm
  obtain ⟨s1, s2⟩ := Int.floor_eq_iff.1 hs
  have h1' : (h : ℚ) * 3600 ≤ d := by rw [le_div_iff₀ (by norm_num)] at h1; exact h1
  have h2' : d < ((h : ℚ) + 1) * 3600 := by rw [div_lt_iff₀ (by norm_num)] at h2; exact h2
  have m1' : (m : ℚ) * 60 ≤ d - 3600 * h := by rw [le_div_iff₀ (by norm_num)] at m1; exact m1
  have m2' : d - 3600 * h < ((m : ℚ) + 1) * 60 := by rw [div_lt_iff₀ (by norm_num)] at m2; exact m2
  have hpos : 0 ≤ h := by
    have : (-1 : ℚ) < h := by linarith
    have : (-1 : Int) < h := by exact_mod_cast this
    omega
  have mpos : 0 ≤ m := by
    have : (-1 : ℚ) < m := by linarith
    have : (-1 : Int) < m := by exact_mod_cast this
    omega
  have mlt : m < 60 := by
    have : (m : ℚ) < 60 := by linarith
    exact_mod_cast this
  have spos : 0 ≤ s := by
    have : (-1 : ℚ) < s := by linarith
    have : (-1 : Int) < s := by exact_mod_cast this
    omega
  have slt : s < 60 := by
    have : (s : ℚ) < 60 := by linarith
    exact_mod_cast this
  refine ⟨pad2 h.toNat, pad2 m.toNat, pad2 s.toNat, h.toNat, m.toNat, s.toNat, ?_, parseNat_pad2 _, parseNat_pad2 _,
    parseNat_pad2 _, by omega, by omega, pad2_length _ (by omega), pad2_length _ (by omega), ?_⟩
  · rw [List.append_assoc, List.cons_append, splitChar_piece _ _ _ (pad2_no_colon _),
      splitChar_piece _ _ _ (pad2_no_colon _), splitChar_last _ _ (pad2_no_colon _)]
  · have : ((3600 * h.toNat + 60 * m.toNat + s.toNat : Nat) : Int) = 3600 * h + 60 * m + s := by omega
    rw [this]
    symm
    rw [Int.floor_eq_iff]
    push_cast
    constructor <;> linarith

theorem roundEven_near (x : ℚ) : |x - roundEven x| ≤ 1 / 2 := by
  have h1 := Int.floor_le x
  have h2 := Int.lt_floor_add_one x
  unfold roundEven
  simp only
  rw [abs_le]
  split
  · constructor <;> linarith
  · split
    · push_cast; constructor <;> linarith
    · split
      · constructor <;> linarith
      · push_cast; constructor <;> linarith

/-- At equal distances of two integers, the even one is taken. -/
theorem roundEven_tie (x : ℚ) (h : |x - roundEven x| = 1 / 2) : roundEven x % 2 = 0 := by
  have h1 := Int.floor_le x
  have h2 := Int.lt_floor_add_one x
  unfold roundEven at h ⊢
  simp only at h ⊢
  split at h
  · rename_i hc
    rw [abs_of_nonneg (by linarith)] at h
    linarith
  · split at h
    · rename_i hc1 hc2
      push_cast at h
      rw [abs_of_nonpos (by linarith)] at h
      linarith
    · rename_i hc1 hc2
      rw [if_neg hc1, if_neg hc2]
      split <;> omega

theorem roundEven_nonneg (x : ℚ) (hx : 0 ≤ x) : 0 ≤ roundEven x := by
  have h1 : 0 ≤ ⌊x⌋ := Int.floor_nonneg.2 hx
  unfold roundEven
  simp only
  split
  · exact h1
  · split
    · omega
    · split <;> omega

/-- C61 for durations shorter than one minute: the text is a number of seconds with two decimals, at most half a
hundredth of second from the duration (at equal distances, the number of hundredths is even). -/
theorem C61_short_partial (d : ℚ) (h0 : 0 ≤ d) (hd : d < 60) :
    ∃ (I F : List Char) (i f : Nat), formatTime d = I ++ '.' :: F ++ [' ', 's'] ∧ parseNat I = .ok i ∧
      parseNat F = .ok f ∧ F.length = 2 ∧ f < 100 ∧ i ≤ 60 ∧ |d - (i + f / 100)| ≤ 1 / 200 ∧
      (|d - (i + f / 100)| = 1 / 200 → f % 2 = 0) := by
  unfold formatTime
  rw [if_pos hd]
  unfold fixed2
  simp only
  have hn := roundEven_near (d * 100)
  have hp := roundEven_nonneg (d * 100) (by linarith)
  have ht := roundEven_tie (d * 100)
  generalize hr : roundEven (d * 100) = r at hn hp ht
  have e1 : (r.toNat : ℚ) = (r : ℚ) := by
    have h : ((r.toNat : Int) : ℚ) = (r : ℚ) := by rw [Int.toNat_of_nonneg hp]
    rw [← h]; norm_cast
  have e2 : ((r.toNat / 100 : Nat) : ℚ) * 100 + ((r.toNat % 100 : Nat) : ℚ) = r := by
    rw [← e1]; exact_mod_cast (by omega : r.toNat / 100 * 100 + r.toNat % 100 = r.toNat)
  rw [abs_le] at hn
  refine ⟨natStr (r.toNat / 100), pad2 (r.toNat % 100), r.toNat / 100, r.toNat % 100, rfl, parseNat_natStr _,
    parseNat_pad2 _, pad2_length _ (Nat.mod_lt _ (by omega)), Nat.mod_lt _ (by omega), ?_, ?_, ?_⟩
  · have : (r.toNat : ℚ) < 6001 := by rw [e1]; linarith
    have : r.toNat < 6001 := by exact_mod_cast this
    omega
  · rw [abs_le]
    constructor <;> linarith
  · intro he
    have : |d * 100 - (r : ℚ)| = 1 / 2 := by
      rw [show d * 100 - (r : ℚ) = 100 * (d - (((r.toNat / 100 : Nat) : ℚ) + ((r.toNat % 100 : Nat) : ℚ) / 100)) by rw [← e2]; ring, abs_mul, he]
      norm_num
    have := ht this
    omega

/-- C61 is false just below one minute: the text of 59.996 s is `60.00 s`, its number of whole seconds is 60. -/
theorem C61_rounded_up : formatTime (59996 / 1000) = ['6', '0', '.', '0', '0', ' ', 's'] ∧ ⌊(59996 / 1000 : ℚ)⌋ = 59 := by
  constructor
  · unfold formatTime
    rw [if_pos (by norm_num)]
    unfold fixed2
    have h : roundEven (59996 / 1000 * 100) = 6000 := by
      have hf : ⌊(59996 / 1000 * 100 : ℚ)⌋ = 5999 := by rw [Int.floor_eq_iff]; norm_num
      unfold roundEven
      rw [hf]
      norm_num
    rw [h]
    have h60 : natStr 60 = ['6', '0'] := by rw [natStr, if_neg (by omega)]; show natStr 6 ++ _ = _; rw [natStr, if_pos (by omega)]; decide
    have h0 : natStr 0 = ['0'] := by rw [natStr]; rfl
    show natStr 60 ++ '.' :: pad2 0 ++ _ = _
    unfold pad2
    rw [if_pos (by omega), h60, h0]
    rfl
  · rw [Int.floor_eq_iff]; norm_num

/-- Examples: one hour and twenty-five seconds; half a second is shorter than one minute. -/
example : ∃ d : ℚ, 60 ≤ d ∧ ⌊d⌋ = 3625 := ⟨3625, by norm_num, by rw [Int.floor_eq_iff]; norm_num⟩
example : (0 : ℚ) ≤ 1 / 2 ∧ (1 / 2 : ℚ) < 60 := by norm_num

end Verif
