import Verif.Model.CorrelScipy
import Verif.Props.CorrelDirect
import Verif.Props.Recover
import Mathlib.Tactic.IntervalCases

/-!
# Correlations with scipy (C107, C108)
-/

namespace Verif
open Finset Verif.PivGrid Verif.Correl Verif.CorrelScipy Verif.CorrelDirect

/-! ## Specification -/

/-- The pixel `(y, x)` of a window, or the value `out` outside of the window. -/
def pixelOr (im : Img ℚ) (out : ℚ) (y x : ℤ) : ℚ :=
  if 0 ≤ y ∧ y < im.ny ∧ 0 ≤ x ∧ x < im.nx then im.get y.toNat x.toNat else out

/-- The correlation of two windows for a displacement: the two windows have the same centre, which is the pixel of index
`n // 2` in each direction (this is how the windows are cut, C33); each pixel of the second window is multiplied by the pixel of
the first window which comes to the same place when it is displaced by `(dx, dy)`. -/
def windowCorrel (im0 im1 : Img ℚ) (out : ℚ) (dx dy : ℤ) : ℚ :=
  ∑ y ∈ range im1.ny, ∑ x ∈ range im1.nx,
    im1.get y x * pixelOr im0 out ((y : ℤ) - im1.ny / 2 + im0.ny / 2 - dy) ((x : ℤ) - im1.nx / 2 + im0.nx / 2 - dx)

/-- Sum of the squares of the pixels. -/
def squares (im : Img ℚ) : ℚ := ∑ y ∈ range im.ny, ∑ x ∈ range im.nx, im.get y x ^ 2

/-- The coefficient computed from a correlation and the square of its norm. -/
noncomputable def ratio (c norm2 : ℚ) : ℝ := (c : ℝ) / Real.sqrt (norm2 : ℝ)

/-! ## C107 -/

theorem sumWindow_eq (im0 im1 : Img ℚ) (out : ℚ) (sy sx dy dx : ℤ) (hy : sy = (im0.ny : ℤ) / 2 - im1.ny / 2 - dy)
    (hx : sx = (im0.nx : ℤ) / 2 - im1.nx / 2 - dx) : sumWindow im0 im1 out sy sx = windowCorrel im0 im1 out dx dy := by
  unfold sumWindow windowCorrel
  apply sum_congr rfl; intro y _
  apply sum_congr rfl; intro x _
  rw [mul_comm]
  congr 1
  unfold extend pixelOr
  rw [show sy + (y : ℤ) = (y : ℤ) - im1.ny / 2 + im0.ny / 2 - dy by rw [hy]; ring,
    show sx + (x : ℤ) = (x : ℤ) - im1.nx / 2 + im0.nx / 2 - dx by rw [hx]; ring]

/-- The error of the mode "same", in pixels, for windows of `n` and `m` pixels. -/
def sameBias (n m : ℕ) : ℤ := if n % 2 = m % 2 then 0 else if n % 2 = 0 then 1 else -1

/-- The error of the mode "valid". -/
def validBias (n m : ℕ) : ℤ := if n % 2 = 0 ∧ m % 2 = 1 then 1 else 0

/-- C107, scipy.signal, mode "same": the value at the index of the displacement `d` is the correlation for the displacement
`d`, plus an error of one pixel when the sizes of the windows do not have the same parity. -/
theorem C107_signal_same (im0 im1 : Img ℚ) (out : ℚ) (r nb i j : ℕ) :
    let d := (signalCls .same im0.ny im0.nx im1.ny im1.nx r nb).displacement j i
    (correlate2dSame im0 im1 out).get i j =
      windowCorrel im0 im1 out (d.1 + sameBias im0.nx im1.nx) (d.2 + sameBias im0.ny im1.ny) := by
  simp only
  unfold correlate2dSame
  simp only
  apply sumWindow_eq
  · unfold signalCls signalIndex scipySignalCentre Cls.displacement sameBias
    simp only
    split_ifs <;> omega
  · unfold signalCls signalIndex scipySignalCentre Cls.displacement sameBias
    simp only
    split_ifs <;> omega

/-- C107, scipy.signal, mode "valid": the same, with an error of one pixel when the size of the first window is even and the
one of the second window is odd.  In this mode no pixel outside of the first window is used. -/
theorem C107_signal_valid (im0 im1 : Img ℚ) (out : ℚ) (r nb i j : ℕ) (hy : im1.ny ≤ im0.ny) (hx : im1.nx ≤ im0.nx)
    (hi : i < (correlate2dValid im0 im1).ny) (hj : j < (correlate2dValid im0 im1).nx) :
    let d := (signalCls .valid im0.ny im0.nx im1.ny im1.nx r nb).displacement j i
    (correlate2dValid im0 im1).get i j =
      windowCorrel im0 im1 out (d.1 + validBias im0.nx im1.nx) (d.2 + validBias im0.ny im1.ny) := by
  simp only
  unfold correlate2dValid at hi hj ⊢
  simp only at hi hj ⊢
  have hs : sumWindow im0 im1 0 i j = sumWindow im0 im1 out i j := by
    unfold sumWindow extend
    apply sum_congr rfl; intro y hy'
    apply sum_congr rfl; intro x hx'
    rw [mem_range] at hy' hx'
    have : 0 ≤ (i : ℤ) + y ∧ (i : ℤ) + y < im0.ny ∧ 0 ≤ (j : ℤ) + x ∧ (j : ℤ) + x < im0.nx := by omega
    rw [if_pos this, if_pos this]
  rw [hs]
  apply sumWindow_eq
  · unfold signalCls signalIndex Cls.displacement validBias
    simp only
    split_ifs <;> omega
  · unfold signalCls signalIndex Cls.displacement validBias
    simp only
    split_ifs <;> omega

/-- C107, scipy.ndimage: the value at the index of a displacement is the correlation for this displacement, for all sizes. -/
theorem C107_ndimage (im0 im1 : Img ℚ) (out : ℚ) (r nb i j : ℕ) :
    let d := (ndimageCls im0.ny im0.nx r nb).displacement j i
    (ndCorrelate im0 im1 out).get i j = windowCorrel im0 im1 out d.1 d.2 := by
  simp only
  unfold ndCorrelate
  simp only
  apply sumWindow_eq
  · unfold ndimageCls scipyNdimageCentre Cls.displacement
    simp only
    omega
  · unfold ndimageCls scipyNdimageCentre Cls.displacement
    simp only
    omega

theorem list_sum_range (f : ℕ → ℚ) (n : ℕ) : ((List.range n).map f).sum = ∑ i ∈ range n, f i := by
  induction n with
  | zero => simp
  | succ n ih => rw [List.range_succ, List.map_append, List.sum_append, ih, sum_range_succ]; simp

theorem ravel_sum (im : Img ℚ) (f : ℚ → ℚ) :
    ((ravel im).map f).sum = ∑ y ∈ range im.ny, ∑ x ∈ range im.nx, f (im.get y x) := by
  unfold ravel
  induction im.ny with
  | zero => simp
  | succ n ih =>
    rw [List.range_succ, List.flatMap_append, List.map_append, List.sum_append, ih, sum_range_succ]
    congr 1
    simp only [List.flatMap_cons, List.flatMap_nil, List.append_nil, List.map_map]
    exact list_sum_range (fun x => f (im.get n x)) im.nx

theorem foldl_squares (l : List ℚ) (t : ℚ) : l.foldl (fun t x => t + x ^ 2) t = t + (l.map (fun x => x ^ 2)).sum := by
  induction l generalizing t with
  | nil => simp
  | cons a l ih => rw [List.foldl_cons, ih, List.map_cons, List.sum_cons]; ring

theorem sumBoth_eq (l k : List ℚ) (h : l.length = k.length) (s t : ℚ) :
    sumBoth l k s t = (s + (l.map (fun x => x ^ 2)).sum, t + (k.map (fun x => x ^ 2)).sum) := by
  induction l generalizing k s t with
  | nil =>
    cases k with
    | nil => simp [sumBoth]
    | cons b k => simp at h
  | cons a l ih =>
    cases k with
    | nil => simp at h
    | cons b k =>
      rw [sumBoth, ih k (by simpa using h)]
      simp only [List.map_cons, List.sum_cons]
      congr 1 <;> ring

theorem ravel_length (im : Img ℚ) : (ravel im).length = im.ny * im.nx := by
  unfold ravel
  induction im.ny with
  | zero => simp
  | succ n ih => rw [List.range_succ, List.flatMap_append, List.length_append, ih]; simp [Nat.add_mul]

theorem ravel_cons {im : Img ℚ} (hy : 0 < im.ny) (hx : 0 < im.nx) : ∃ a l, ravel im = a :: l := by
  cases h : ravel im with
  | nil =>
    have := ravel_length im
    rw [h, List.length_nil] at this
    have := Nat.mul_pos hy hx
    omega
  | cons a l => exact ⟨a, l, rfl⟩

/-- C108: the norm of scipy.signal and of the direct method is the root of the product of the sums of the squares, with the two
loops of the code (windows of the same number of pixels or not). -/
theorem C108_norm (im0 im1 : Img ℚ) (h0 : 0 < im0.ny ∧ 0 < im0.nx) (h1 : 0 < im1.ny ∧ 0 < im1.nx) :
    normImagesSq im0 im1 = .ok (squares im0 * squares im1) ∧ pythranNormSq im0 im1 = squares im0 * squares im1 := by
  have e : ∀ im : Img ℚ, ((ravel im).map (fun x => x ^ 2)).sum = squares im := fun im => ravel_sum im _
  constructor
  · obtain ⟨a, l, ha⟩ := ravel_cons h0.1 h0.2
    obtain ⟨b, k, hb⟩ := ravel_cons h1.1 h1.2
    unfold normImagesSq
    rw [← e, ← e, ha, hb]
    simp only
    split
    · simp only [sumSquares, foldl_squares, List.map_cons, List.sum_cons]
    · rename_i hl
      rw [sumBoth_eq l k (by simpa using hl)]
      simp only [List.map_cons, List.sum_cons]
  · unfold pythranNormSq
    rw [e, e, mul_comm]

/-- C107: the values of the calls, for windows which are not empty; a mode which is not known is refused with a `TypeError`
(and not the `ValueError` of the code). -/
theorem C107_calls (im0 im1 : Img ℚ) (h0 : 0 < im0.ny ∧ 0 < im0.nx) (h1 : 0 < im1.ny ∧ 0 < im1.nx) :
    (∃ out, signalCall .same im0 im1 = .ok (correlate2dSame im0 im1 out, squares im0 * squares im1) ∧
      ndimageCall im0 im1 = .ok (ndCorrelate im0 im1 out, squares im1) ∧
      (∃ y x, y < im1.ny ∧ x < im1.nx ∧ out = im1.get y x) ∧ ∀ y x, y < im1.ny → x < im1.nx → out ≤ im1.get y x) ∧
    signalCall .valid im0 im1 = .ok (correlate2dValid im0 im1, squares im0 * squares im1) ∧
    modeOf none = .ok .same ∧ (∀ s, s ≠ "valid".toList → s ≠ "same".toList → modeOf (some s) = .error .typeError) := by
  have hn := (C108_norm im0 im1 h0 h1).1
  obtain ⟨b, k, hb⟩ := ravel_cons h1.1 h1.2
  have hmem : ∀ v, v ∈ ravel im1 ↔ ∃ y x, y < im1.ny ∧ x < im1.nx ∧ v = im1.get y x := by
    intro v
    unfold ravel
    simp only [List.mem_flatMap, List.mem_map, List.mem_range]
    constructor
    · rintro ⟨y, hy, x, hx, rfl⟩; exact ⟨y, x, hy, hx, rfl⟩
    · rintro ⟨y, x, hy, hx, rfl⟩; exact ⟨y, hy, x, hx, rfl⟩
  have hmin : ∀ (l : List ℚ) (a : ℚ), (l.foldl min a = a ∨ l.foldl min a ∈ l) ∧ l.foldl min a ≤ a ∧
      ∀ v ∈ l, l.foldl min a ≤ v := by
    intro l
    induction l with
    | nil => intro a; simp
    | cons c l ih =>
      intro a
      rw [List.foldl_cons]
      obtain ⟨i1, i2, i3⟩ := ih (min a c)
      refine ⟨?_, le_trans i2 (min_le_left _ _), ?_⟩
      · rcases i1 with i1 | i1
        · rcases min_choice a c with h | h
          · left; rw [i1, h]
          · right; rw [i1, h]; exact List.mem_cons_self
        · right; exact List.mem_cons_of_mem _ i1
      · intro v hv
        rcases List.mem_cons.1 hv with rfl | hv
        · exact le_trans i2 (min_le_right _ _)
        · exact i3 v hv
  refine ⟨⟨k.foldl min b, ?_, ?_, ?_, ?_⟩, ?_, rfl, ?_⟩
  · unfold signalCall imMin
    rw [hn, hb]
  · unfold ndimageCall
    rw [ravel_sum im1 (fun x => x ^ 2)]
    unfold imMin
    rw [hb]
    rfl
  · apply (hmem _).1
    rw [hb]
    rcases (hmin k b).1 with h | h
    · rw [h]; exact List.mem_cons_self
    · exact List.mem_cons_of_mem _ h
  · intro y x hy hx
    have := (hmem _).2 ⟨y, x, hy, hx, rfl⟩
    rw [hb] at this
    rcases List.mem_cons.1 this with h | h
    · rw [h]; exact (hmin k b).2.1
    · exact (hmin k b).2.2 _ h
  · unfold signalCall
    rw [hn]
  · intro s h1 h2
    unfold modeOf
    simp only
    rw [if_neg h1, if_neg h2]

/-- The window of 5 pixels around the same centre as the window of 8 pixels, with a bright particle. -/
def wide : Img ℚ := ⟨8, 8, fun i j => if i = 4 ∧ j = 4 then 9 else if i = 4 ∧ j = 3 then 3 else if i = 3 ∧ j = 5 then 2 else 0⟩
def narrow : Img ℚ := ⟨5, 5, fun i j => wide.get (i + 2) (j + 2)⟩

/-- C107 fails when the sizes of the windows do not have the same parity: two windows of the same image with the same centre
(no displacement), of sizes 8 and 5; the displacement found by scipy.signal is `(-1, -1)`. -/
theorem C107_parity_fails : 
    (∀ y x : ℕ, y < 5 → x < 5 → narrow.get y x = pixelOr wide 0 ((y : ℤ) - 5 / 2 + 8 / 2 - 0) ((x : ℤ) - 5 / 2 + 8 / 2 - 0)) ∧
    displacements (signalCls .same 8 8 5 5 1 1) (toMap (correlate2dSame wide narrow 0)) 94 = .ok (⟨-1, -1, some 1⟩, none) ∧
    displacements (signalCls .valid 8 8 5 5 1 1) (toMap (correlate2dValid wide narrow)) 94 = .ok (⟨-1, -1, some 1⟩, none) ∧
    displacements (ndimageCls 8 8 1 1) (toMap (ndCorrelate wide narrow 0)) 94 = .ok (⟨0, 0, some 1⟩, none) := by
  refine ⟨?_, ?_, ?_, ?_⟩
  · intro y x hy hx; interval_cases y <;> interval_cases x <;> decide +kernel
  all_goals decide +kernel

/-- Non-vacuity: sizes of the same parity. -/
example : displacements (signalCls .same 8 8 8 8 1 1) (toMap (correlate2dSame wide wide 0)) 94 = .ok (⟨0, 0, some 1⟩, none) := by
  decide +kernel
example : sameBias 8 8 = 0 ∧ sameBias 8 5 = 1 ∧ sameBias 7 4 = -1 ∧ validBias 7 4 = 0 := by decide

/-! ## C108 -/

theorem sumWindow_sq_le (im0 im1 : Img ℚ) (out : ℚ) (sy sx : ℤ) :
    sumWindow im0 im1 out sy sx ^ 2 ≤
      (∑ y ∈ range im1.ny, ∑ x ∈ range im1.nx, extend im0 out (sy + y) (sx + x) ^ 2) * squares im1 := by
  have h := Finset.sum_mul_sq_le_sq_mul_sq (range im1.ny ×ˢ range im1.nx) (fun p => extend im0 out (sy + p.1) (sx + p.2))
    (fun p => im1.get p.1 p.2)
  simp only [sum_product] at h
  exact h

theorem ratio_le (c n : ℚ) (h : c ^ 2 ≤ n) : |ratio c n| ≤ 1 := by
  unfold ratio
  rw [abs_div, abs_of_nonneg (Real.sqrt_nonneg _)]
  apply div_le_one_of_le₀ _ (Real.sqrt_nonneg _)
  apply Real.abs_le_sqrt
  exact_mod_cast h

theorem sum_part_le (g : ℕ → ℚ) (hg : ∀ i, 0 ≤ g i) (s m n : ℕ) (h : s + m ≤ n) :
    ∑ y ∈ range m, g (s + y) ≤ ∑ y ∈ range n, g y := by
  have e := sum_Ico_eq_sum_range (fun y => g y) s (s + m)
  rw [Nat.add_sub_cancel_left] at e
  rw [← e]
  apply sum_le_sum_of_subset_of_nonneg
  · intro y hy
    rw [mem_Ico] at hy
    exact mem_range.2 (by omega)
  · intros; exact hg _

/-- C108, scipy.signal in mode "valid": the coefficient is between -1 and 1 for all windows and all displacements. -/
theorem C108_valid (im0 im1 : Img ℚ) (hy : im1.ny ≤ im0.ny) (hx : im1.nx ≤ im0.nx) (i j : ℕ)
    (hi : i < (correlate2dValid im0 im1).ny) (hj : j < (correlate2dValid im0 im1).nx) :
    |ratio ((correlate2dValid im0 im1).get i j) (squares im0 * squares im1)| ≤ 1 := by
  apply ratio_le
  unfold correlate2dValid at hi hj ⊢
  simp only at hi hj ⊢
  refine le_trans (sumWindow_sq_le im0 im1 0 i j) (mul_le_mul_of_nonneg_right ?_
    (sum_nonneg (fun _ _ => sum_nonneg (fun _ _ => sq_nonneg _))))
  have e : ∑ y ∈ range im1.ny, ∑ x ∈ range im1.nx, extend im0 0 ((i : ℤ) + y) ((j : ℤ) + x) ^ 2
      = ∑ y ∈ range im1.ny, ∑ x ∈ range im1.nx, im0.get (i + y) (j + x) ^ 2 := by
    apply sum_congr rfl; intro y hy'
    apply sum_congr rfl; intro x hx'
    rw [mem_range] at hy' hx'
    unfold extend
    rw [if_pos (by omega)]
    congr 2
  rw [e]
  unfold squares
  refine le_trans (sum_le_sum (fun y _ => sum_part_le (fun x => im0.get (i + y) x ^ 2) (fun _ => sq_nonneg _) j im1.nx im0.nx
    (by omega))) ?_
  exact sum_part_le (fun y => ∑ x ∈ range im0.nx, im0.get y x ^ 2) (fun _ => sum_nonneg (fun _ _ => sq_nonneg _)) i im1.ny im0.ny
    (by omega)

/-- For windows of the same shape, when no pixel of the first window is darker than the value used outside, the squares of
the pixels seen for a displacement are less than the squares of the pixels. -/
theorem extended_squares (im0 : Img ℚ) (out : ℚ) (h0 : 0 < im0.ny) (h1 : 0 < im0.nx) (ho : 0 ≤ out)
    (hd : ∀ y x, y < im0.ny → x < im0.nx → out ≤ im0.get y x) (sy sx : ℤ) :
    ∑ y ∈ range im0.ny, ∑ x ∈ range im0.nx, extend im0 out (sy + y) (sx + x) ^ 2 ≤ squares im0 := by
  have h := sum_translate2 im0.ny im0.nx h0 h1 sx sy (fun a b => ((im0.get a b ^ 2 : ℚ) : ℝ))
  have h2 : ((∑ y ∈ range im0.ny, ∑ x ∈ range im0.nx, im0.get ((((y : ℤ) + sy) % im0.ny).toNat)
      ((((x : ℤ) + sx) % im0.nx).toNat) ^ 2 : ℚ) : ℝ) = ((squares im0 : ℚ) : ℝ) := by
    unfold squares
    push_cast at h ⊢
    exact h
  have h3 : ∑ y ∈ range im0.ny, ∑ x ∈ range im0.nx, im0.get ((((y : ℤ) + sy) % im0.ny).toNat)
      ((((x : ℤ) + sx) % im0.nx).toNat) ^ 2 = squares im0 := by exact_mod_cast h2
  rw [← h3]
  apply sum_le_sum; intro y _
  apply sum_le_sum; intro x _
  unfold extend
  split
  · rename_i hin
    rw [add_comm sy, add_comm sx] at *
    rw [Int.emod_eq_of_lt hin.1 hin.2.1, Int.emod_eq_of_lt hin.2.2.1 hin.2.2.2]
  · exact pow_le_pow_left₀ ho (hd _ _ (index_lt _ h0 _) (index_lt _ h1 _)) 2

/-- C108, windows of the same shape with pixels which are not negative, when the darkest pixel of the second window is not
brighter than the pixels of the first window: the coefficient of scipy.signal (mode "same") is at most 1; it is 1 for a window
correlated with itself, at the displacement 0.  Missing for the full property: other windows (`C108_same_fails`,
`C108_ndimage_fails`, `C108_pythran_fails`). -/
theorem C108_same_partial (im0 im1 : Img ℚ) (out : ℚ) (h0 : 0 < im0.ny) (h1 : 0 < im0.nx) (hy : im1.ny = im0.ny)
    (hx : im1.nx = im0.nx) (ho : 0 ≤ out) (hd : ∀ y x, y < im0.ny → x < im0.nx → out ≤ im0.get y x) (r nb : ℕ) :
    (∀ i j, |ratio ((correlate2dSame im0 im1 out).get i j) (squares im0 * squares im1)| ≤ 1) ∧
    (∀ i j : ℕ, (signalCls .same im0.ny im0.nx im1.ny im1.nx r nb).displacement j i = (0, 0) → squares im0 ≠ 0 →
      ratio ((correlate2dSame im0 im0 out).get i j) (squares im0 * squares im0) = 1) := by
  constructor
  · intro i j
    apply ratio_le
    refine le_trans (sumWindow_sq_le im0 im1 out _ _) (mul_le_mul_of_nonneg_right ?_
      (sum_nonneg (fun _ _ => sum_nonneg (fun _ _ => sq_nonneg _))))
    rw [hy, hx]
    exact extended_squares im0 out h0 h1 ho hd _ _
  · intro i j hij hs
    have hw := C107_signal_same im0 im0 out r nb i j
    rw [hy, hx] at hij
    rw [hij] at hw
    simp only [sameBias, if_true, add_zero] at hw
    have he : windowCorrel im0 im0 out 0 0 = squares im0 := by
      unfold windowCorrel squares
      apply sum_congr rfl; intro y hy'
      apply sum_congr rfl; intro x hx'
      rw [mem_range] at hy' hx'
      unfold pixelOr
      rw [show (y : ℤ) - (im0.ny : ℤ) / 2 + (im0.ny : ℤ) / 2 - 0 = y by ring,
        show (x : ℤ) - (im0.nx : ℤ) / 2 + (im0.nx : ℤ) / 2 - 0 = x by ring, if_pos (by omega), sq]
      rfl
    rw [hw, he]
    unfold ratio
    have hnn : (0 : ℝ) ≤ ((squares im0 : ℚ) : ℝ) := by
      have : 0 ≤ squares im0 := sum_nonneg (fun _ _ => sum_nonneg (fun _ _ => sq_nonneg _))
      exact_mod_cast this
    push_cast
    rw [Real.sqrt_mul_self hnn]
    exact div_self (by exact_mod_cast hs)

/-- Non-vacuity. -/
example : (∀ y x, y < wide.ny → x < wide.nx → (0 : ℚ) ≤ wide.get y x) ∧ squares wide = 94 ∧
    (signalCls .same 8 8 8 8 1 1).displacement 3 3 = (0, 0) := by
  refine ⟨?_, by decide +kernel, by decide⟩
  intro y x _ _
  unfold wide
  simp only
  split_ifs <;> norm_num

theorem ratio_gt (c n : ℚ) (hc : 0 ≤ c) (hn : 0 < n) (h : n < c ^ 2) : 1 < ratio c n := by
  unfold ratio
  have hn' : (0 : ℝ) < (n : ℝ) := by exact_mod_cast hn
  rw [lt_div_iff₀ (Real.sqrt_pos.2 hn'), one_mul, Real.sqrt_lt' (by
    have : 0 < c := by
      rcases hc.lt_or_eq with h' | h'
      · exact h'
      · rw [← h'] at h; norm_num at h; linarith
    exact_mod_cast this)]
  exact_mod_cast h

/-- A dark window with a particle, and a bright uniform window. -/
def darkWin : Img ℚ := ⟨6, 6, fun i j => if i = 2 ∧ j = 2 then 1 else 0⟩
def brightWin : Img ℚ := ⟨6, 6, fun _ _ => 10⟩

/-- C108 fails for scipy.signal: outside of the first window, the darkest pixel of the second window is used, and the
coefficient is larger than 100. -/
theorem C108_same_fails : signalCall .same darkWin brightWin = .ok (correlate2dSame darkWin brightWin 10, 3600) ∧
    (correlate2dSame darkWin brightWin 10).get 0 0 = 2010 ∧ 1 < ratio 2010 3600 ∧ 2010 ^ 2 > 33 ^ 2 * (3600 : ℚ) := by
  refine ⟨?_, by decide +kernel, ratio_gt _ _ (by norm_num) (by norm_num) (by norm_num), by norm_num⟩
  obtain ⟨⟨out, h1, _, ⟨y, x, _, _, h2⟩, _⟩, _⟩ := C107_calls darkWin brightWin (by decide) (by decide)
  have ho : out = 10 := h2
  have hs : squares darkWin * squares brightWin = 3600 := by decide +kernel
  rw [h1, ho, hs]

/-- C108 fails for scipy.ndimage: the norm does not depend on the first window, and the coefficient is larger than 1 when the
first window is brighter; the window correlated with itself has the coefficient 1. -/
theorem C108_ndimage_fails : ndimageCall brightWin darkWin = .ok (ndCorrelate brightWin darkWin 0, 1) ∧
    (ndCorrelate brightWin darkWin 0).get 3 3 = 10 := by
  refine ⟨?_, by decide +kernel⟩
  obtain ⟨⟨out, _, h1, ⟨y, x, hy, hx, h2⟩, h3⟩, _⟩ := C107_calls brightWin darkWin (by decide) (by decide)
  have ho : out = 0 := by
    have := h3 0 0 (by decide) (by decide)
    have e : darkWin.get 0 0 = 0 := by decide +kernel
    rw [e] at this
    have h4 : 0 ≤ darkWin.get y x := by
      unfold darkWin
      simp only
      split_ifs <;> norm_num
    rw [h2] at this ⊢
    linarith
  have hs : squares darkWin = 1 := by decide +kernel
  rw [h1, ho, hs]

/-- A particle in the corner of a window of 4 pixels, and the same particle in the opposite corner. -/
def cornerA : Img ℚ := ⟨4, 4, fun i j => if i = 1 ∧ j = 1 then 1 else 0⟩
def cornerB : Img ℚ := ⟨4, 4, fun i j => if i = 2 ∧ j = 2 then 1 else 0⟩

/-- C108 fails for the direct method: the sum over the overlap is divided by the size of the overlap, the norm is not, and the
coefficient of a particle which moves by one pixel is 16/9. -/
theorem C108_pythran_fails : pythranNormSq cornerA cornerB = 1 ∧
    ∃ k c, pythranCall none cornerA cornerB = .ok (k, c) ∧ k.displacement 0 0 = (1, 1) ∧ c.get 0 0 = some (16 / 9) := by
  refine ⟨by decide +kernel, ?_⟩
  obtain ⟨d, k, c, h1, h2, h3, h4, h5, h6, h7⟩ := C39_class_partial cornerA cornerB (Or.inl (by decide))
  have hd : pythranInit none (4 : ℕ) (4 : ℕ) (4 : ℕ) (4 : ℕ) = .ok 1 := by decide
  have hk : k.ix0 = 1 ∧ k.iy0 = 1 := by
    unfold pythranCall at h1
    rw [show pythranInit none cornerA.ny cornerA.nx cornerB.ny cornerB.nx = .ok 1 from hd] at h1
    simp only at h1
    split at h1
    · cases h1
    · injection h1 with h1
      injection h1 with h1 _
      subst h1
      exact ⟨rfl, rfl⟩
  have hdis : k.displacement 0 0 = (1, 1) := by
    unfold Cls.displacement
    rw [hk.1, hk.2]
    rfl
  refine ⟨k, c, h1, hdis, ?_⟩
  have h8 := h7 0 0 (by omega) (by omega)
  rw [h8]
  simp only [Nat.cast_zero]
  rw [hdis]
  decide +kernel

/-- The window of 3 pixels, exactly present in the window of 9 pixels, displaced by `(2, 2)`, and a bright region of this
window. -/
def bigWin : Img ℚ := ⟨9, 9, fun i j =>
  if i = 2 ∧ j = 2 then 2 else if i = 2 ∧ j = 1 then 1 else if 4 ≤ i ∧ i ≤ 6 ∧ 4 ≤ j ∧ j ≤ 6 then 5 else 0⟩
def smallWin : Img ℚ := ⟨3, 3, fun i j => bigWin.get (i + 1) (j + 1)⟩

/-- C108 fails: the windows are not normalised locally, and the displacement found is the one of a bright region (the whole
window of 3 pixels is in the other one with the displacement `(2, 2)`). -/
theorem C108_bright_fails :
    (∀ y x : ℕ, y < 3 → x < 3 → smallWin.get y x = pixelOr bigWin 0 ((y : ℤ) - 3 / 2 + 9 / 2 - 2) ((x : ℤ) - 3 / 2 + 9 / 2 - 2)) ∧
    ∃ d, displacements (signalCls .valid 9 9 3 3 1 1) (toMap (correlate2dValid bigWin smallWin)) 1 = .ok (d, none) ∧
      d.dx < 0 ∧ d.dy < 0 := by
  refine ⟨?_, ⟨-2, -2, some 15⟩, by decide +kernel, by decide, by decide⟩
  intro y x hy hx; interval_cases y <;> interval_cases x <;> decide +kernel

end Verif
