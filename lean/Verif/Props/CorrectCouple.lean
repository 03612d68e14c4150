import Verif.Model.CorrectCouple
import Mathlib.Tactic.Linarith
import Mathlib.Tactic.Ring
import Mathlib.Tactic.Positivity
import Mathlib.Tactic.NormNum
import Mathlib.Analysis.Real.Pi.Bounds
import Mathlib.Data.Int.Log
import Mathlib.Algebra.Order.Round

/-!
# C30: correction of the phase jumps
-/

namespace Verif
open Real Verif.CorrectCouple

theorem loop_zero_jump {ι : Type} {rnd : ℝ → ℝ} {a : ℝ} {anglemod : ι → ℝ} {p : ι} {n : ℕ} {correct : ι → ℝ} {jump : ℝ}
    (h : |jump| ≤ a) : loop rnd a anglemod p n correct jump = some correct := by
  unfold loop
  rw [if_neg (not_lt.2 h)]

theorem loop_exact {ι : Type} (anglemod angle : ι → ℝ) (p : ι) (n : ℕ) (m : ℤ)
    (h : |angle p - 2 * π * m - anglemod p| ≤ (2 * n + 1) * π) :
    ∃ m' : ℤ, loop id π anglemod p n (fun x => angle x - 2 * π * m) (angle p - 2 * π * m - anglemod p) =
      some (fun x => angle x - 2 * π * m') ∧ |angle p - 2 * π * m' - anglemod p| ≤ π := by
  have hpi := pi_pos
  induction n generalizing m with
  | zero =>
    refine ⟨m, loop_zero_jump (by simpa using h), by simpa using h⟩
  | succ n ih =>
    by_cases hj : |angle p - 2 * π * m - anglemod p| ≤ π
    · exact ⟨m, loop_zero_jump hj, hj⟩
    · have hj' := not_le.1 hj
      unfold loop
      rw [if_pos hj']
      simp only [id]
      rcases lt_or_ge 0 (angle p - 2 * π * m - anglemod p) with hpos | hneg
      · have hs : ((SignType.sign (angle p - 2 * π * m - anglemod p) : SignType) : ℝ) = 1 := by
          rw [sign_pos hpos]; simp
        rw [hs]
        rw [abs_of_pos hpos] at hj' h
        have e : (fun x => angle x - 2 * π * m - 1 * 2 * π) = fun x => angle x - 2 * π * ((m + 1 : ℤ) : ℝ) := by
          funext x; push_cast; ring
        have e' := congrFun e p
        rw [e, e']
        apply ih
        rw [abs_le]
        push_cast at h ⊢
        constructor
        · nlinarith
        · linarith
      · have hneg' : angle p - 2 * π * m - anglemod p < 0 := by
          rcases hneg.lt_or_eq with h0 | h0
          · exact h0
          · rw [h0] at hj'; simp at hj'; linarith
        have hs : ((SignType.sign (angle p - 2 * π * m - anglemod p) : SignType) : ℝ) = -1 := by
          rw [sign_neg hneg']; simp
        rw [hs]
        rw [abs_of_neg hneg'] at hj' h
        have e : (fun x => angle x - 2 * π * m - -1 * 2 * π) = fun x => angle x - 2 * π * ((m - 1 : ℤ) : ℝ) := by
          funext x; push_cast; ring
        have e' := congrFun e p
        rw [e, e']
        apply ih
        rw [abs_le]
        push_cast at h ⊢
        constructor
        · linarith
        · nlinarith

/-- C30, exact arithmetic: correcting a couple of phase maps ends; the result is the map minus one multiple of `2 π`,
the same for all the pixels; and the jump at the reference pixel with respect to the previous map is at most `π`. -/
theorem C30_correct_couple_partial {ι : Type} (anglemod angle : ι → ℝ) (p : ι) :
    ∃ (n : ℕ) (m : ℤ) (result : ι → ℝ), correctCouple id π anglemod angle p n = some result ∧
      (∀ x, result x = angle x - 2 * π * m) ∧ |result p - anglemod p| ≤ π := by
  obtain ⟨n, hn⟩ := exists_nat_ge (|angle p - anglemod p| / π)
  have hpi := pi_pos
  have h : |angle p - 2 * π * ((0 : ℤ) : ℝ) - anglemod p| ≤ (2 * n + 1) * π := by
    rw [div_le_iff₀ hpi] at hn
    have : (0 : ℝ) ≤ n := Nat.cast_nonneg n
    simp only [Int.cast_zero, mul_zero, sub_zero]
    nlinarith
  obtain ⟨m, h1, h2⟩ := loop_exact anglemod angle p n 0 h
  refine ⟨n, m, _, ?_, fun _ => rfl, h2⟩
  unfold correctCouple
  simpa using h1

/-- C30: a map whose jump is at most `π` is returned unchanged (also with rounding errors). -/
theorem C30_no_jump {ι : Type} (rnd : ℝ → ℝ) (pi1 : ℝ) (anglemod angle : ι → ℝ) (p : ι) (n : ℕ)
    (h : |rnd (angle p - anglemod p)| ≤ pi1) : correctCouple rnd pi1 anglemod angle p n = some angle :=
  loop_zero_jump h

theorem loop_jump {ι : Type} {rnd : ℝ → ℝ} {pi1 : ℝ} {anglemod : ι → ℝ} {p : ι} {n : ℕ} {correct result : ι → ℝ}
    (h : loop rnd pi1 anglemod p n correct (rnd (correct p - anglemod p)) = some result) :
    |rnd (result p - anglemod p)| ≤ pi1 := by
  induction n generalizing correct with
  | zero =>
    unfold loop at h
    split at h
    · cases h
    · rename_i hj; cases h; exact not_lt.1 hj
  | succ n ih =>
    unfold loop at h
    split at h
    · exact ih h
    · rename_i hj; cases h; exact not_lt.1 hj

/-- C30: whatever the rounding errors, when a map is returned, its computed jump at the reference pixel is at most
`π`. -/
theorem C30_jump {ι : Type} (rnd : ℝ → ℝ) (pi1 : ℝ) (anglemod angle : ι → ℝ) (p : ι) (n : ℕ) {result : ι → ℝ}
    (h : correctCouple rnd pi1 anglemod angle p n = some result) : |rnd (result p - anglemod p)| ≤ pi1 :=
  loop_jump h

/-- C30: the correction does not depend on multiples of `2 π` added to the map, when the jump is not exactly `π`. -/
theorem C30_removes_multiples {ι : Type} (anglemod angle : ι → ℝ) (p : ι) (m : ℤ)
    (h : |angle p - anglemod p| < π) :
    ∃ n, correctCouple id π anglemod (fun x => angle x + 2 * π * m) p n = some angle := by
  obtain ⟨n, m', r, h1, h2, h3⟩ := C30_correct_couple_partial anglemod (fun x => angle x + 2 * π * m) p
  refine ⟨n, ?_⟩
  rw [h1]
  congr 1
  have hpi := pi_pos
  have hm : m' = m := by
    have h4 := h2 p
    rw [h4] at h3
    rw [abs_le] at h3
    rw [abs_lt] at h
    by_contra hne
    rcases lt_or_gt_of_ne hne with hlt | hgt
    · have : (m' : ℝ) + 1 ≤ m := by exact_mod_cast hlt
      nlinarith
    · have : (m : ℝ) + 1 ≤ m' := by exact_mod_cast hgt
      nlinarith
  funext x
  rw [h2 x, hm]
  ring

/-! ## Rounding -/

/-- A number with a mantissa of 53 bits (the range of the exponents is not limited). -/
def IsDouble (y : ℝ) : Prop := ∃ m e : ℤ, |m| ≤ 2 ^ 53 ∧ y = m * 2 ^ e

/-- Rounding to the nearest number with a mantissa of 53 bits, to the even mantissa if there are two such numbers. -/
structure IsNearest (rnd : ℝ → ℝ) : Prop where
  isDouble : ∀ x, IsDouble (rnd x)
  nearest : ∀ x y, IsDouble y → |rnd x - x| ≤ |y - x|
  even : ∀ z e : ℤ, 2 ^ 52 < |2 * z| → |2 * z| < 2 ^ 53 →
    rnd ((2 * z + 1 / 2) * 2 ^ e) = 2 * z * 2 ^ e ∧ rnd ((2 * z - 1 / 2) * 2 ^ e) = 2 * z * 2 ^ e

theorem rnd_huge {rnd : ℝ → ℝ} (h : IsNearest rnd) {d : ℝ} (h0 : 0 ≤ d) (h7 : d < 7) : rnd (2 ^ 60 - d) = 2 ^ 60 := by
  have h60 : IsDouble (2 ^ 60) := ⟨1, 60, by norm_num, by norm_num⟩
  have h1 := h.nearest (2 ^ 60 - d) (2 ^ 60) h60
  have h2 : |(2 : ℝ) ^ 60 - (2 ^ 60 - d)| = d := by rw [sub_sub_cancel, abs_of_nonneg h0]
  rw [h2, abs_le] at h1
  obtain ⟨m, e, hm, he⟩ := h.isDouble (2 ^ 60 - d)
  by_cases he7 : 7 ≤ e
  · obtain ⟨k, rfl⟩ : ∃ k : ℕ, e = 7 + k := ⟨(e - 7).toNat, by omega⟩
    have e1 : rnd (2 ^ 60 - d) = ((128 * (m * 2 ^ k) : ℤ) : ℝ) := by
      rw [he, zpow_add₀ (by norm_num)]
      push_cast
      norm_num
      ring
    rw [e1] at h1 ⊢
    have h3 : (2 : ℤ) ^ 60 - 14 < 128 * (m * 2 ^ k) := by
      have : ((2 : ℝ) ^ 60 - 14) < ((128 * (m * 2 ^ k) : ℤ) : ℝ) := by linarith [h1.1]
      exact_mod_cast this
    have h4 : 128 * (m * 2 ^ k) ≤ (2 : ℤ) ^ 60 := by
      have : ((128 * (m * 2 ^ k) : ℤ) : ℝ) ≤ (2 : ℝ) ^ 60 := by linarith [h1.2]
      exact_mod_cast this
    have h5 : 128 * (m * 2 ^ k) = (2 : ℤ) ^ 60 := by
      generalize m * 2 ^ k = z at h3 h4 ⊢
      norm_num at h3 h4 ⊢
      omega
    rw [h5]; norm_num
  · exfalso
    have hme : |rnd (2 ^ 60 - d)| ≤ 2 ^ 59 := by
      rw [he, abs_mul]
      have a1 : |(m : ℝ)| ≤ 2 ^ 53 := by exact_mod_cast hm
      have a2 : |(2 : ℝ) ^ e| ≤ 2 ^ 6 := by
        rw [abs_of_pos (by positivity)]
        have : (2 : ℝ) ^ e ≤ 2 ^ (6 : ℤ) := zpow_le_zpow_right₀ (by norm_num) (by omega)
        calc (2 : ℝ) ^ e ≤ 2 ^ (6 : ℤ) := this
          _ = 2 ^ 6 := by norm_num
      calc |(m : ℝ)| * |(2 : ℝ) ^ e| ≤ 2 ^ 53 * 2 ^ 6 := mul_le_mul a1 a2 (abs_nonneg _) (by positivity)
        _ = 2 ^ 59 := by norm_num
    have := (abs_le.1 hme).2
    norm_num at this h1
    linarith [h1.1]

/-- C30 fails in double precision, for very large phases: as `2^60 - 2 π` is rounded to `2^60`, the loop never ends. -/
theorem C30_huge_phase_fails {rnd : ℝ → ℝ} (h : IsNearest rnd) {pi1 : ℝ} (hpi : 3 < pi1) (hpi' : pi1 < 7 / 2) (n : ℕ) :
    correctCouple rnd pi1 (fun _ : Unit => 0) (fun _ => 2 ^ 60) () n = none := by
  unfold correctCouple
  have h0 : rnd (2 ^ 60 - 0) = 2 ^ 60 := rnd_huge h le_rfl (by norm_num)
  rw [h0]
  induction n with
  | zero =>
    unfold loop
    rw [if_pos (by rw [abs_of_pos (by positivity)]; norm_num; linarith)]
  | succ n ih =>
    unfold loop
    rw [if_pos (by rw [abs_of_pos (by positivity)]; norm_num; linarith)]
    have hs : ((SignType.sign ((2 : ℝ) ^ 60) : SignType) : ℝ) = 1 := by rw [sign_pos (by positivity)]; simp
    have h1 : rnd (2 ^ 60 - 1 * 2 * pi1) = 2 ^ 60 := rnd_huge h (by linarith) (by linarith)
    simp only [hs, h1, h0]
    exact ih

/-- The double precision number `math.pi`. -/
noncomputable def mathPi : ℝ := 884279719003555 / 2 ^ 48

theorem IsNearest.self {rnd : ℝ → ℝ} (h : IsNearest rnd) {x : ℝ} (hx : IsDouble x) : rnd x = x := by
  have := h.nearest x x hx
  rw [sub_self, abs_zero] at this
  exact sub_eq_zero.1 (abs_eq_zero.1 (le_antisymm this (abs_nonneg _)))

/-- C30 fails in double precision, for ordinary phases: for a phase of about 96 rad and a jump just larger than `π`, the
rounding errors change the jump into its opposite, again and again, and the loop never ends. -/
theorem C30_rounding_fails {rnd : ℝ → ℝ} (h : IsNearest rnd) (n : ℕ) :
    correctCouple rnd mathPi (fun _ : Unit => 96 + 2 ^ (-46 : ℤ)) (fun _ => 96 + 2 ^ (-46 : ℤ) + 221069929750889 * 2 ^ (-46 : ℤ))
      () n = none := by
  have hu : (2 : ℝ) ^ (-46 : ℤ) = 1 / 2 ^ 46 := by norm_num
  have hP : mathPi = (221069929750888 + 3 / 4) * 2 ^ (-46 : ℤ) := by rw [hu, mathPi]; norm_num
  have hpos : (0 : ℝ) < 2 ^ (-46 : ℤ) := by positivity
  have h1 : rnd (96 + 2 ^ (-46 : ℤ) + 221069929750889 * 2 ^ (-46 : ℤ) - (96 + 2 ^ (-46 : ℤ))) =
      221069929750889 * 2 ^ (-46 : ℤ) := by
    rw [add_sub_cancel_left]
    exact h.self ⟨221069929750889, -46, by norm_num, by norm_num⟩
  have h2 : rnd (96 + 2 ^ (-46 : ℤ) + 221069929750889 * 2 ^ (-46 : ℤ) - 1 * 2 * mathPi) =
      96 + 2 ^ (-46 : ℤ) - 221069929750889 * 2 ^ (-46 : ℤ) := by
    have := (h.even ((96 * 2 ^ 46 + 1 - 221069929750889) / 2) (-46) (by norm_num) (by norm_num)).1
    rw [hP, hu] at *
    norm_num at this ⊢
    exact this
  have h3 : rnd (96 + 2 ^ (-46 : ℤ) - 221069929750889 * 2 ^ (-46 : ℤ) - (96 + 2 ^ (-46 : ℤ))) =
      - (221069929750889 * 2 ^ (-46 : ℤ)) := by
    rw [sub_sub_cancel_left]
    exact h.self ⟨-221069929750889, -46, by norm_num, by norm_num⟩
  have h4 : rnd (96 + 2 ^ (-46 : ℤ) - 221069929750889 * 2 ^ (-46 : ℤ) - -1 * 2 * mathPi) =
      96 + 2 ^ (-46 : ℤ) + 221069929750889 * 2 ^ (-46 : ℤ) := by
    have := (h.even ((96 * 2 ^ 46 + 1 + 221069929750889) / 2) (-46) (by norm_num) (by norm_num)).2
    rw [hP, hu] at *
    norm_num at this ⊢
    exact this
  have hj : mathPi < |221069929750889 * (2 : ℝ) ^ (-46 : ℤ)| := by
    rw [abs_of_pos (by positivity), hP]
    nlinarith
  have hs : ((SignType.sign (221069929750889 * (2 : ℝ) ^ (-46 : ℤ)) : SignType) : ℝ) = 1 := by
    rw [sign_pos (by positivity)]; simp
  have hs' : ((SignType.sign (-(221069929750889 * (2 : ℝ) ^ (-46 : ℤ))) : SignType) : ℝ) = -1 := by
    rw [sign_neg (neg_lt_zero.2 (by positivity))]; simp
  have key : ∀ n, loop rnd mathPi (fun _ : Unit => 96 + 2 ^ (-46 : ℤ)) () n
      (fun _ => 96 + 2 ^ (-46 : ℤ) + 221069929750889 * 2 ^ (-46 : ℤ)) (221069929750889 * 2 ^ (-46 : ℤ)) = none ∧
      loop rnd mathPi (fun _ : Unit => 96 + 2 ^ (-46 : ℤ)) () n
      (fun _ => 96 + 2 ^ (-46 : ℤ) - 221069929750889 * 2 ^ (-46 : ℤ)) (-(221069929750889 * 2 ^ (-46 : ℤ))) = none := by
    intro n
    induction n with
    | zero =>
      constructor
      · unfold loop; rw [if_pos hj]
      · unfold loop; rw [if_pos (by rw [abs_neg]; exact hj)]
    | succ n ih =>
      constructor
      · unfold loop
        rw [if_pos hj]
        simp only [hs, h2, h3]
        exact ih.2
      · unfold loop
        rw [if_pos (by rw [abs_neg]; exact hj)]
        simp only [hs', h4, h1]
        exact ih.1
  unfold correctCouple
  rw [h1]
  exact (key n).1

/-- Rounding to the nearest integer, to the even one if there are two. -/
noncomputable def roundEven (y : ℝ) : ℤ :=
  if Int.fract y = 1 / 2 then (if Even ⌊y⌋ then ⌊y⌋ else ⌊y⌋ + 1) else round y

theorem roundEven_le (y : ℝ) (z : ℤ) : |y - roundEven y| ≤ |y - z| := by
  have h1 : |y - round y| ≤ |y - z| := round_le _ _
  unfold roundEven
  split
  · rename_i hf
    have hy : y = ⌊y⌋ + 1 / 2 := by rw [← hf]; exact (Int.floor_add_fract y).symm
    have h2 : |y - round y| = 1 / 2 := by rw [abs_sub_round_eq_min, hf]; norm_num
    rw [h2] at h1
    split
    · refine le_trans (le_of_eq ?_) h1
      rw [abs_of_nonneg (by linarith)]; linarith
    · refine le_trans (le_of_eq ?_) h1
      push_cast
      rw [abs_of_nonpos (by linarith)]; linarith
  · exact h1

theorem roundEven_le_of_le {y : ℝ} {N : ℤ} (h : |y| ≤ N) : |roundEven y| ≤ N := by
  rw [abs_le] at h ⊢
  have h1 := Int.le_floor.2 (show ((-N : ℤ) : ℝ) ≤ y by push_cast; exact h.1)
  have h2 : ⌊y⌋ ≤ N := by
    have := Int.floor_le y
    have : ((⌊y⌋ : ℤ) : ℝ) ≤ N := by linarith [h.2]
    exact_mod_cast this
  have h4 : Int.fract y = 1 / 2 → ⌊y⌋ + 1 ≤ N := by
    intro hf
    have hy : y = ⌊y⌋ + 1 / 2 := by rw [← hf]; exact (Int.floor_add_fract y).symm
    have : ((⌊y⌋ : ℤ) : ℝ) < N := by linarith [h.2]
    have : ⌊y⌋ < N := by exact_mod_cast this
    omega
  unfold roundEven
  split
  · rename_i hf
    have := h4 hf
    split <;> constructor <;> omega
  · rw [round_eq]
    constructor
    · rw [Int.le_floor]
      push_cast
      linarith [h.1]
    · rw [← Int.lt_add_one_iff, Int.floor_lt]
      push_cast
      linarith [h.2]

/-- Rounding to 53 bits: a multiple of `2^(e - 52)` where `2^e ≤ |x| < 2^(e + 1)`. -/
noncomputable def rnd53 (x : ℝ) : ℝ := roundEven (x / 2 ^ (Int.log 2 |x| - 52)) * 2 ^ (Int.log 2 |x| - 52)

theorem round_mul_nearest (x u : ℝ) (hu : 0 < u) (z : ℤ) : |roundEven (x / u) * u - x| ≤ |z * u - x| := by
  have h1 : |x / u - roundEven (x / u)| ≤ |x / u - z| := roundEven_le _ _
  have e : ∀ a : ℝ, |a * u - x| = |x / u - a| * u := by
    intro a
    rw [← abs_of_pos hu, ← abs_mul, abs_of_pos hu, sub_mul, div_mul_cancel₀ _ hu.ne', abs_sub_comm]
  rw [e, e]
  exact mul_le_mul_of_nonneg_right h1 hu.le

theorem log_of_lt {x : ℝ} {z e : ℤ} (h1 : (2 : ℝ) ^ 52 * 2 ^ e ≤ |x|) (h2 : |x| < 2 ^ 53 * 2 ^ e) :
    Int.log 2 |x| - 52 = e := by
  have hpos : 0 < |x| := lt_of_lt_of_le (by positivity) h1
  have a1 : e + 52 ≤ Int.log 2 |x| := by
    rw [← Int.zpow_le_iff_le_log (by norm_num) hpos]
    refine le_trans (le_of_eq ?_) h1
    rw [zpow_add₀ (by norm_num), mul_comm]
    norm_cast
  have a2 : Int.log 2 |x| < e + 53 := by
    rw [← Int.lt_zpow_iff_log_lt (by norm_num) hpos]
    refine lt_of_lt_of_le h2 (le_of_eq ?_)
    rw [zpow_add₀ (by norm_num), mul_comm]
    norm_cast
  omega

theorem rnd53_tie (z e : ℤ) (h1 : 2 ^ 52 < |2 * z|) (h2 : |2 * z| < 2 ^ 53) (d : ℝ) (hd : d = 1 / 2 ∨ d = -(1 / 2)) :
    rnd53 ((2 * z + d) * 2 ^ e) = 2 * z * 2 ^ e := by
  have hu : (0 : ℝ) < 2 ^ e := by positivity
  have hd' : |d| = 1 / 2 := by rcases hd with rfl | rfl <;> norm_num
  have b1 : (2 : ℝ) ^ 52 + 1 ≤ |2 * (z : ℝ)| := by
    have : (2 : ℤ) ^ 52 + 1 ≤ |2 * z| := h1
    exact_mod_cast this
  have b2 : |2 * (z : ℝ)| ≤ 2 ^ 53 - 1 := by
    have : |2 * z| ≤ 2 ^ 53 - 1 := by omega
    exact_mod_cast this
  have b3 : |2 * (z : ℝ)| - 1 / 2 ≤ |2 * (z : ℝ) + d| := by
    have := abs_sub_abs_le_abs_sub (2 * (z : ℝ)) (-d)
    rw [abs_neg, sub_neg_eq_add, hd'] at this
    exact this
  have b4 : |2 * (z : ℝ) + d| ≤ |2 * (z : ℝ)| + 1 / 2 := by
    have := abs_add_le (2 * (z : ℝ)) d
    rwa [hd'] at this
  have hax : |(2 * (z : ℝ) + d) * 2 ^ e| = |2 * (z : ℝ) + d| * 2 ^ e := by rw [abs_mul, abs_of_pos hu]
  have hlog : Int.log 2 |(2 * (z : ℝ) + d) * 2 ^ e| - 52 = e := by
    apply log_of_lt (z := 0)
    · rw [hax]; exact mul_le_mul_of_nonneg_right (by linarith) hu.le
    · rw [hax]; exact mul_lt_mul_of_pos_right (by linarith) hu
  unfold rnd53
  rw [hlog, mul_div_cancel_right₀ _ hu.ne']
  congr 1
  have hr : roundEven (2 * (z : ℝ) + d) = 2 * z := by
    unfold roundEven
    rcases hd with rfl | rfl
    · have hf : ⌊2 * (z : ℝ) + 1 / 2⌋ = 2 * z := by
        rw [Int.floor_eq_iff]; push_cast; constructor <;> linarith
      have hfr : Int.fract (2 * (z : ℝ) + 1 / 2) = 1 / 2 := by
        rw [Int.fract, hf]; push_cast; ring
      rw [if_pos hfr, hf, if_pos (even_two_mul z)]
    · have hf : ⌊2 * (z : ℝ) + -(1 / 2)⌋ = 2 * z - 1 := by
        rw [Int.floor_eq_iff]; push_cast; constructor <;> linarith
      have hfr : Int.fract (2 * (z : ℝ) + -(1 / 2)) = 1 / 2 := by
        rw [Int.fract, hf]; push_cast; ring
      have hodd : ¬ Even (2 * z - 1) := by
        rw [Int.not_even_iff_odd]; exact ⟨z - 1, by ring⟩
      rw [if_pos hfr, hf, if_neg hodd]; ring
  rw [hr]; push_cast; ring

/-- Such roundings exist. -/
theorem rnd53_isNearest : IsNearest rnd53 where
  isDouble := by
    intro x
    refine ⟨_, _, ?_, rfl⟩
    have hu : (0 : ℝ) < 2 ^ (Int.log 2 |x| - 52) := by positivity
    have h1 : |x| ≤ 2 ^ 53 * 2 ^ (Int.log 2 |x| - 52) := by
      have := (Int.lt_zpow_succ_log_self (b := 2) (by norm_num) |x|).le
      refine this.trans (le_of_eq ?_)
      rw [← zpow_natCast (2 : ℝ) 53, ← zpow_add₀ (by norm_num)]
      push_cast
      congr 1
      ring
    have h2 : |x / 2 ^ (Int.log 2 |x| - 52)| ≤ 2 ^ 53 := by
      rw [abs_div, abs_of_pos hu, div_le_iff₀ hu]
      exact h1
    exact roundEven_le_of_le (by exact_mod_cast h2)
  nearest := by
    rintro x y ⟨m, e, hm, rfl⟩
    by_cases hx : x = 0
    · subst hx
      have : rnd53 0 = 0 := by simp [rnd53, roundEven]
      rw [this, sub_zero, abs_zero]; exact abs_nonneg _
    have hax : 0 < |x| := abs_pos.2 hx
    obtain ⟨E, hE⟩ : ∃ E, E = Int.log 2 |x| - 52 := ⟨_, rfl⟩
    have hr : rnd53 x = roundEven (x / 2 ^ E) * 2 ^ E := by rw [hE]; rfl
    rw [hr]
    have hu : (0 : ℝ) < 2 ^ E := by positivity
    by_cases he : E ≤ e
    · obtain ⟨k, rfl⟩ : ∃ k : ℕ, e = E + k := ⟨(e - E).toNat, by omega⟩
      have := round_mul_nearest x (2 ^ E) hu (m * 2 ^ k)
      refine this.trans (le_of_eq ?_)
      congr 2
      rw [zpow_add₀ (by norm_num), zpow_natCast]
      push_cast
      ring
    · have hlow : (2 : ℝ) ^ 52 * 2 ^ E ≤ |x| := by
        have := Int.zpow_log_le_self (b := 2) (by norm_num) hax
        refine le_trans (le_of_eq ?_) this
        rw [← zpow_natCast (2 : ℝ) 52, ← zpow_add₀ (by norm_num), hE]
        push_cast
        congr 1
        ring
      have hy : |(m : ℝ) * 2 ^ e| ≤ 2 ^ 52 * 2 ^ E := by
        rw [abs_mul]
        have a1 : |(m : ℝ)| ≤ 2 ^ 53 := by exact_mod_cast hm
        have a2 : |(2 : ℝ) ^ e| ≤ 2 ^ E / 2 := by
          rw [abs_of_pos (by positivity)]
          have : (2 : ℝ) ^ e ≤ 2 ^ (E - 1) := zpow_le_zpow_right₀ (by norm_num) (by omega)
          rwa [zpow_sub_one₀ (by norm_num), ← div_eq_mul_inv] at this
        calc |(m : ℝ)| * |(2 : ℝ) ^ e| ≤ 2 ^ 53 * (2 ^ E / 2) := mul_le_mul a1 a2 (abs_nonneg _) (by positivity)
          _ = 2 ^ 52 * 2 ^ E := by ring
      have hfar : |x| - 2 ^ 52 * 2 ^ E ≤ |(m : ℝ) * 2 ^ e - x| := by
        have := abs_sub_abs_le_abs_sub x ((m : ℝ) * 2 ^ e)
        rw [abs_sub_comm] at this
        linarith
      refine le_trans ?_ hfar
      rcases lt_or_gt_of_ne hx with hneg | hpos
      · have := round_mul_nearest x (2 ^ E) hu (-2 ^ 52)
        refine this.trans (le_of_eq ?_)
        rw [abs_of_neg hneg] at hlow ⊢
        push_cast
        rw [abs_of_nonneg (by linarith)]
        ring
      · have := round_mul_nearest x (2 ^ E) hu (2 ^ 52)
        refine this.trans (le_of_eq ?_)
        rw [abs_of_pos hpos] at hlow ⊢
        push_cast
        rw [abs_of_nonpos (by linarith)]
        ring
  even := fun z e h1 h2 => ⟨rnd53_tie z e h1 h2 (1 / 2) (Or.inl rfl), by
    have := rnd53_tie z e h1 h2 (-(1 / 2)) (Or.inr rfl)
    rwa [← sub_eq_add_neg] at this⟩

/-- The value of `math.pi` is between 3 and 3.5; a jump of `5` is corrected once. -/
example : (3 : ℝ) < π ∧ π < 7 / 2 ∧ correctCouple id π (fun _ : Unit => 0) (fun _ => 5) () 1 = some (fun _ => 5 - 2 * π) := by
  have h3 := pi_gt_three
  have h315 := pi_lt_d2
  refine ⟨h3, by linarith, ?_⟩
  unfold correctCouple loop
  simp only [id, sub_zero]
  rw [if_pos (by rw [abs_of_pos (by norm_num)]; linarith)]
  have hs : ((SignType.sign (5 : ℝ) : SignType) : ℝ) = 1 := by rw [sign_pos (by norm_num)]; simp
  simp only [hs]
  rw [loop_zero_jump (by rw [abs_le]; constructor <;> linarith)]
  simp

end Verif
