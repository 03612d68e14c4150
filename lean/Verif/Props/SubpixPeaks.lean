import Verif.Props.Subpix

/-!
# Peaks which are not lost by the sub-pixel refinement (C109)

A symmetric peak is found exactly or is lost (NaN), `C109_symmetric`.  Here: conditions on the values around the peak with
which it is never lost, and a peak which is lost with the default method.
-/

namespace Verif
open Verif.Subpix
open Verif.LoopVectors (Method SubErr)

/-! ## Specification -/

/-- A peak whose values decrease from the centre to the sides and from the sides to the corners (`A x y` is the value at the
offset `(x, y)` of the centre, and `A (-x) (-y)` is the same); the sides are higher than the lowest corner, by a hundred-millionth of
the height of the peak. -/
def Sharp (A : Int → Int → ℝ) : Prop :=
  ∀ s, s = A 1 0 ∨ s = A 0 1 → A 1 1 ≤ s ∧ A 1 (-1) ≤ s ∧ s < A 0 0 ∧
    A 0 0 - min (A 1 1) (A 1 (-1)) ≤ 10 ^ 8 * (s - min (A 1 1) (A 1 (-1)))

/-- Conditions with which the refinement does not lose a symmetric peak: nothing without refinement, a sharp peak with the
default method, and a sum of the values of the square of half size `n` which is not zero for the two other methods. -/
def NotLost (m : Method) (n : Nat) (A : Int → Int → ℝ) : Prop :=
  match m with
  | .noSubpix => True
  | .gaussian2 => Sharp A
  | .gaussian | .centroid => ∑ i ∈ Finset.range (2 * n + 1), ∑ j ∈ Finset.range (2 * n + 1), A ((j : Int) - n) ((i : Int) - n) ≠ 0

/-! ## Proofs -/

theorem notLost_congr {m : Method} {n : Nat} {A B : Int → Int → ℝ} (hn : 1 ≤ n) (h : ∀ x y : Int, |x| ≤ n → |y| ≤ n → A x y = B x y)
    (hA : NotLost m n A) : NotLost m n B := by
  have hn' : (1 : Int) ≤ n := by exact_mod_cast hn
  have h1 : |(1 : Int)| ≤ n := by simpa using hn'
  have h0 : |(0 : Int)| ≤ n := by simp
  have hm : |(-1 : Int)| ≤ n := by simpa using hn'
  have hs : ∑ i ∈ Finset.range (2 * n + 1), ∑ j ∈ Finset.range (2 * n + 1), A ((j : Int) - n) ((i : Int) - n) =
      ∑ i ∈ Finset.range (2 * n + 1), ∑ j ∈ Finset.range (2 * n + 1), B ((j : Int) - n) ((i : Int) - n) := by
    apply Finset.sum_congr rfl; intro i hi
    apply Finset.sum_congr rfl; intro j hj
    have := Finset.mem_range.1 hi
    have := Finset.mem_range.1 hj
    exact h _ _ (by rw [abs_le]; omega) (by rw [abs_le]; omega)
  cases m with
  | noSubpix => trivial
  | gaussian2 =>
    unfold NotLost Sharp at hA ⊢
    simp only at hA ⊢
    rwa [h 1 0 h1 h0, h 0 1 h0 h1, h 1 1 h1 h1, h 1 (-1) h1 hm, h 0 0 h0 h0] at hA
  | gaussian => unfold NotLost at hA ⊢; simp only at hA ⊢; rwa [hs] at hA
  | centroid => unfold NotLost at hA ⊢; simp only at hA ⊢; rwa [hs] at hA

/-- The condition does not depend on the unit of the values. -/
theorem notLost_scale {m : Method} {n : Nat} {A : Int → Int → ℝ} {k : ℝ} (hk : 0 < k) (hA : NotLost m n A) :
    NotLost m n (fun x y => k * A x y) := by
  have hs : ∑ i ∈ Finset.range (2 * n + 1), ∑ j ∈ Finset.range (2 * n + 1), k * A ((j : Int) - n) ((i : Int) - n) =
      k * ∑ i ∈ Finset.range (2 * n + 1), ∑ j ∈ Finset.range (2 * n + 1), A ((j : Int) - n) ((i : Int) - n) := by
    rw [Finset.mul_sum]
    apply Finset.sum_congr rfl; intro i _
    rw [Finset.mul_sum]
  cases m with
  | noSubpix => trivial
  | gaussian2 =>
    unfold NotLost Sharp at hA ⊢
    simp only at hA ⊢
    intro s hs'
    obtain ⟨t, ht, rfl⟩ : ∃ t, (t = A 1 0 ∨ t = A 0 1) ∧ s = k * t := by
      rcases hs' with h | h
      · exact ⟨_, .inl rfl, h⟩
      · exact ⟨_, .inr rfl, h⟩
    obtain ⟨a, b, c, d⟩ := hA t ht
    rw [← mul_min_of_nonneg _ _ hk.le]
    refine ⟨mul_le_mul_of_nonneg_left a hk.le, mul_le_mul_of_nonneg_left b hk.le, mul_lt_mul_of_pos_left c hk, ?_⟩
    have := mul_le_mul_of_nonneg_left d hk.le
    linarith
  | gaussian => unfold NotLost at hA ⊢; simp only at hA ⊢; rw [hs]; exact mul_ne_zero hk.ne' hA
  | centroid => unfold NotLost at hA ⊢; simp only at hA ⊢; rw [hs]; exact mul_ne_zero hk.ne' hA

theorem sum_crop (n : Nat) (c : RMap) (ix iy : Int) : ∑ q, crop n c ix iy q =
    ∑ i ∈ Finset.range (2 * n + 1), ∑ j ∈ Finset.range (2 * n + 1), c.val (iy + ((i : Int) - n)) (ix + ((j : Int) - n)) := by
  rw [Fintype.sum_prod_type]
  rw [← Fin.sum_univ_eq_sum_range (fun i => ∑ j ∈ Finset.range (2 * n + 1), c.val (iy + ((i : Int) - n)) (ix + ((j : Int) - n)))]
  apply Finset.sum_congr rfl; intro i _
  rw [← Fin.sum_univ_eq_sum_range (fun j => c.val (iy + ((i.val : Int) - n)) (ix + ((j : Int) - n)))]
  apply Finset.sum_congr rfl; intro j _
  unfold crop
  congr 1 <;> ring

/-- The determinant of the fit for a symmetric logarithm which decreases from the centre (zero) to the sides and to the corners. -/
theorem gaussian2Log_sharp (l : Crop 1) (a b c e : ℝ) (ha : 0 < a) (hb : 0 < b) (h1 : a ≤ c) (h2 : a ≤ e) (h3 : b ≤ c) (h4 : b ≤ e)
    (l00 : l (0, 0) = -c) (l01 : l (0, 1) = -b) (l02 : l (0, 2) = -e) (l10 : l (1, 0) = -a) (l11 : l (1, 1) = 0)
    (l12 : l (1, 2) = -a) (l20 : l (2, 0) = -e) (l21 : l (2, 1) = -b) (l22 : l (2, 2) = -c) : gaussian2Log l = .fin 0 0 := by
  unfold gaussian2Log
  simp only [sum9, l00, l01, l02, l10, l11, l12, l20, l21, l22, off0, off1, off2]
  unfold quot
  refine (if_neg ?_).trans ?_
  · intro h0
    have e1 : 4 / 9 * ((a + c + e - 2 * b) * (b + c + e - 2 * a)) - (c - e) ^ 2 / 4 = 0 := by
      rw [← h0]; ring
    have e2 : (c - e) ^ 2 < (a + c + e - 2 * b) * (b + c + e - 2 * a) := by
      rcases le_total c e with h | h
      · have p1 : a + (e - c) ≤ a + c + e - 2 * b := by linarith
        have p2 : b + (e - c) ≤ b + c + e - 2 * a := by linarith
        nlinarith [mul_le_mul p1 p2 (by linarith) (by linarith), mul_pos ha hb, mul_nonneg ha.le (sub_nonneg.2 h), mul_nonneg hb.le (sub_nonneg.2 h)]
      · have p1 : a + (c - e) ≤ a + c + e - 2 * b := by linarith
        have p2 : b + (c - e) ≤ b + c + e - 2 * a := by linarith
        nlinarith [mul_le_mul p1 p2 (by linarith) (by linarith), mul_pos ha hb, mul_nonneg ha.le (sub_nonneg.2 h), mul_nonneg hb.le (sub_nonneg.2 h)]
    nlinarith [sq_nonneg (c - e)]
  · congr 1
    · rw [div_eq_zero_iff]; left; ring
    · rw [div_eq_zero_iff]; left; ring

/-- The default method finds a sharp symmetric peak. -/
theorem gaussian2_sharp (c : RMap) (ix iy : Int) (h : IsSymmetric 1 c ix iy) (hs : Sharp (fun x y => c.val (iy + y) (ix + x))) :
    gaussian2 (crop 1 c ix iy) = .fin 0 0 := by
  have s1 := h 1 0 (by simp) (by simp)
  have s2 := h 0 1 (by simp) (by simp)
  have s3 := h 1 1 (by simp) (by simp)
  have s4 := h 1 (-1) (by simp) (by simp)
  obtain ⟨p1, p2, p3, p4⟩ := hs _ (.inl rfl)
  obtain ⟨q1, q2, q3, q4⟩ := hs _ (.inr rfl)
  simp only [add_zero, sub_zero, sub_neg_eq_add] at s1 s2 s3 s4 p1 p2 p3 p4 q1 q2 q3 q4
  have cv : ∀ (i j : Fin (2 * 1 + 1)) (a b : Int), iy - 1 + (i.val : Int) = a → ix - 1 + (j.val : Int) = b → crop 1 c ix iy (i, j) = c.val a b := by
    rintro i j a b rfl rfl; rfl
  have z0 : ∀ z : Int, z - 1 + (((0 : Fin (2 * 1 + 1)).val : Nat) : Int) = z - 1 := fun z => by simp
  have z1 : ∀ z : Int, z - 1 + (((1 : Fin (2 * 1 + 1)).val : Nat) : Int) = z := fun z => by simp
  have z2 : ∀ z : Int, z - 1 + (((2 : Fin (2 * 1 + 1)).val : Nat) : Int) = z + 1 := fun z => by
    show z - 1 + ((2 : Nat) : Int) = z + 1; push_cast; ring
  have v00 : crop 1 c ix iy (0, 0) = c.val (iy + 1) (ix + 1) := (cv 0 0 _ _ (z0 _) (z0 _)).trans s3.symm
  have v01 : crop 1 c ix iy (0, 1) = c.val (iy + 1) ix := (cv 0 1 _ _ (z0 _) (z1 _)).trans s2.symm
  have v02 : crop 1 c ix iy (0, 2) = c.val (iy + -1) (ix + 1) := cv 0 2 _ _ (z0 _) (z2 _)
  have v10 : crop 1 c ix iy (1, 0) = c.val iy (ix + 1) := (cv 1 0 _ _ (z1 _) (z0 _)).trans s1.symm
  have v11 : crop 1 c ix iy (1, 1) = c.val iy ix := cv 1 1 _ _ (z1 _) (z1 _)
  have v12 : crop 1 c ix iy (1, 2) = c.val iy (ix + 1) := cv 1 2 _ _ (z1 _) (z2 _)
  have v20 : crop 1 c ix iy (2, 0) = c.val (iy + -1) (ix + 1) := (cv 2 0 _ _ (z2 _) (z0 _)).trans s4.symm
  have v21 : crop 1 c ix iy (2, 1) = c.val (iy + 1) ix := cv 2 1 _ _ (z2 _) (z1 _)
  have v22 : crop 1 c ix iy (2, 2) = c.val (iy + 1) (ix + 1) := cv 2 2 _ _ (z2 _) (z2 _)
  clear cv z0 z1 z2
  generalize crop 1 c ix iy = v at *
  generalize c.val (iy + 1) (ix + 1) = C at *
  generalize c.val (iy + -1) (ix + 1) = E at *
  generalize c.val iy (ix + 1) = S at *
  generalize c.val (iy + 1) ix = T at *
  generalize c.val iy ix = M at *
  clear s1 s2 s3 s4 h hs
  set lo := min C E with hlo
  have l1 : lo ≤ C := min_le_left _ _
  have l2 : lo ≤ E := min_le_right _ _
  have hq : ∀ q : Fin (2 * 1 + 1) × Fin (2 * 1 + 1), v q = C ∨ v q = E ∨ v q = S ∨ v q = T ∨ v q = M := by
    rintro ⟨i, j⟩
    fin_cases i <;> fin_cases j <;> simp_all
  have hmin : minCrop v = lo := by
    refine minCrop_eq _ _ (fun q => ?_) ?_
    · rcases hq q with h | h | h | h | h <;> rw [h] <;> linarith
    · rcases min_choice C E with h | h
      · exact ⟨(0, 0), by rw [v00, hlo, h]⟩
      · exact ⟨(0, 2), by rw [v02, hlo, h]⟩
  have hmax : maxCrop (fun q => v q - minCrop v) = M - lo := by
    rw [hmin]
    refine maxCrop_eq _ _ (fun q => ?_) ⟨(1, 1), by show v (1, 1) - lo = _; rw [v11]⟩
    rcases hq q with h | h | h | h | h <;> rw [h] <;> linarith
  have hR : 0 < M - lo := by linarith
  have hnorm : ∀ q, normalised v q = if v q = lo then 1 / 100000000 else (v q - lo) / (M - lo) := by
    intro q
    unfold normalised
    simp only [hmax]
    rw [hmin]
    by_cases he : v q = lo
    · rw [if_pos he, if_pos (by rw [he, sub_self, zero_div])]
    · rw [if_neg he, if_neg (div_ne_zero (sub_ne_zero.mpr he) hR.ne')]
  have side : ∀ s, C ≤ s → E ≤ s → s < M → M - lo ≤ 10 ^ 8 * (s - lo) → ∀ q, v q = s →
      1 / 100000000 ≤ (s - lo) / (M - lo) ∧ normalised v q = (s - lo) / (M - lo) ∧ (s - lo) / (M - lo) < 1 := by
    intro s b1 b2 b3 b4 q hv
    have hne : lo < s := by
      by_contra hc
      have : s - lo ≤ 0 := by linarith
      nlinarith
    refine ⟨?_, ?_, ?_⟩
    · rw [div_le_div_iff₀ (by norm_num) hR]; linarith
    · rw [hnorm, if_neg (by rw [hv]; exact hne.ne'), hv]
    · rw [div_lt_one hR]; linarith
  have corner : ∀ d, lo ≤ d → ∀ q, v q = d → 0 < normalised v q ∧ ∀ s, d ≤ s → 1 / 100000000 ≤ (s - lo) / (M - lo) →
      normalised v q ≤ (s - lo) / (M - lo) := by
    intro d b1 q hv
    rw [hnorm, hv]
    by_cases he : d = lo
    · rw [if_pos he]; exact ⟨by norm_num, fun s _ hs => hs⟩
    · rw [if_neg he]
      have : lo < d := lt_of_le_of_ne b1 (Ne.symm he)
      exact ⟨div_pos (by linarith) hR, fun s hs _ => div_le_div_of_nonneg_right (by linarith) hR.le⟩
  obtain ⟨x1, x2, x3⟩ := side S p1 p2 p3 p4 _ v10
  obtain ⟨-, x4, -⟩ := side S p1 p2 p3 p4 _ v12
  obtain ⟨y1, y2, y3⟩ := side T q1 q2 q3 q4 _ v01
  obtain ⟨-, y4, -⟩ := side T q1 q2 q3 q4 _ v21
  have hx0 : 0 < (S - lo) / (M - lo) := lt_of_lt_of_le (by norm_num) x1
  have hy0 : 0 < (T - lo) / (M - lo) := lt_of_lt_of_le (by norm_num) y1
  obtain ⟨c1, c2⟩ := corner C l1 _ v00
  obtain ⟨e1, e2⟩ := corner E l2 _ v02
  have same : ∀ q q', v q = v q' → normalised v q = normalised v q' := by
    intro q q' h
    rw [hnorm, hnorm, h]
  unfold gaussian2
  rw [if_neg (by rw [hmax]; exact hR.ne')]
  refine gaussian2Log_sharp _ (-Real.log ((S - lo) / (M - lo))) (-Real.log ((T - lo) / (M - lo))) (-Real.log (normalised v (0, 0)))
    (-Real.log (normalised v (0, 2))) ?_ ?_ ?_ ?_ ?_ ?_ ?_ ?_ ?_ ?_ ?_ ?_ ?_ ?_ ?_
  · have := Real.log_neg hx0 x3; linarith
  · have := Real.log_neg hy0 y3; linarith
  · exact neg_le_neg (Real.log_le_log c1 (c2 S p1 x1))
  · exact neg_le_neg (Real.log_le_log e1 (e2 S p2 x1))
  · exact neg_le_neg (Real.log_le_log c1 (c2 T q1 y1))
  · exact neg_le_neg (Real.log_le_log e1 (e2 T q2 y1))
  · simp
  · simp [y2]
  · simp
  · simp [x2]
  · rw [hnorm, if_neg (by rw [v11]; intro hh; linarith), v11, div_self hR.ne', Real.log_one]
  · simp [x4]
  · rw [neg_neg, same (2, 0) (0, 2) (by rw [v20, v02])]
  · simp [y4]
  · rw [neg_neg, same (2, 2) (0, 0) (by rw [v22, v00])]

/-- C109: the position of a symmetric peak is exact, for every method, if the peak is not lost. -/
theorem C109_found (m : Method) (nsubpix : Option Nat) (n : Nat) (hc : construct m nsubpix = .ok n) (hn : 1 ≤ n)
    (p : Matrix (Fin 5) (Fin (2 * n + 1) × Fin (2 * n + 1)) ℝ) (hp : IsPinv (design n) p) (c : RMap) (ix iy : Int)
    (hin : InMap n c ix iy) (h : IsSymmetric n c ix iy) (hl : NotLost m n (fun x y => c.val (iy + y) (ix + x))) :
    computeSubpix m n p c ix iy = .ok (.fin ix iy) := by
  obtain ⟨h1, h2⟩ := C109_symmetric m nsubpix n hc hn p hp c ix iy hin h
  rcases h1 with h1 | h1
  · exact h1
  · exfalso
    cases m with
    | noSubpix => rcases h2 h1 with h | h
                  · cases h
                  · exact h.1 rfl
    | centroid => rcases h2 h1 with h | h
                  · cases h
                  · rw [sum_crop] at h; exact hl h.2
    | gaussian => rcases h2 h1 with h | h
                  · cases h
                  · rw [sum_crop] at h; exact hl h.2
    | gaussian2 =>
      have hn1 : n = 1 := by
        unfold construct at hc
        split at hc
        · injection hc with hc; exact hc.symm
        · split_ifs at hc with h3
          injection hc with hc
          subst hc
          simpa using h3
      subst hn1
      have hg := gaussian2_sharp c ix iy h hl
      unfold computeSubpix at h1
      rw [if_neg (not_boundary hin)] at h1
      simp only at h1
      rw [hg, if_neg (zero_not_large 1)] at h1
      simp [shift] at h1

/-! ## A peak which is lost -/

/-- A symmetric peak of height 1; the sides are zero and the corners `10 ^ -4`. -/
noncomputable def crossMap : RMap :=
  ⟨3, 3, fun i0 i1 => if i0 = 1 ∧ i1 = 1 then 1 else if i0 = 1 ∨ i1 = 1 then 0 else 1 / 10000⟩

/-- C109 fails for the default method: a symmetric peak, higher than all its neighbours and with positive values, is lost (its position is NaN,
without error). -/
theorem C109_lost_fails (p : Matrix (Fin 5) (Fin (2 * 1 + 1) × Fin (2 * 1 + 1)) ℝ) :
    InMap 1 crossMap 1 1 ∧ IsSymmetric 1 crossMap 1 1 ∧
    (∀ x y : Int, |x| ≤ 1 → |y| ≤ 1 → (x ≠ 0 ∨ y ≠ 0) → 0 ≤ crossMap.val (1 + y) (1 + x) ∧ crossMap.val (1 + y) (1 + x) < crossMap.val 1 1) ∧
    computeSubpix .gaussian2 1 p crossMap 1 1 = .ok .nan := by
  have hin : InMap 1 crossMap 1 1 := by unfold InMap crossMap; simp
  refine ⟨hin, ?_, ?_, ?_⟩
  · intro x y hx hy
    have hx := abs_le.1 hx
    have hy := abs_le.1 hy
    have : x = -1 ∨ x = 0 ∨ x = 1 := by omega
    have : y = -1 ∨ y = 0 ∨ y = 1 := by omega
    rcases ‹x = -1 ∨ _› with h | h | h <;> rcases ‹y = -1 ∨ _› with h' | h' | h' <;> subst h <;> subst h' <;> simp [crossMap]
  · intro x y hx hy
    have hx := abs_le.1 hx
    have hy := abs_le.1 hy
    have : x = -1 ∨ x = 0 ∨ x = 1 := by omega
    have : y = -1 ∨ y = 0 ∨ y = 1 := by omega
    rcases ‹x = -1 ∨ _› with h | h | h <;> rcases ‹y = -1 ∨ _› with h' | h' | h' <;> subst h <;> subst h' <;> simp [crossMap] <;> norm_num
  · have v : ∀ i j : Fin (2 * 1 + 1), crop 1 crossMap 1 1 (i, j) = if i = 1 ∧ j = 1 then 1 else if i = 1 ∨ j = 1 then 0 else 1 / 10000 := by
      intro i j
      fin_cases i <;> fin_cases j <;> simp [crop, crossMap]
    have hmin : minCrop (crop 1 crossMap 1 1) = 0 := by
      refine minCrop_eq _ _ (fun q => ?_) ⟨(0, 1), ?_⟩
      · obtain ⟨i, j⟩ := q
        rw [v]; split_ifs <;> norm_num
      · rw [v]; simp
    have hmax : maxCrop (fun q => crop 1 crossMap 1 1 q - minCrop (crop 1 crossMap 1 1)) = 1 := by
      rw [hmin]
      refine maxCrop_eq _ _ (fun q => ?_) ⟨(1, 1), ?_⟩
      · obtain ⟨i, j⟩ := q
        rw [v]; split_ifs <;> norm_num
      · show crop 1 crossMap 1 1 (1, 1) - 0 = 1
        rw [v]; simp
    have hnorm : ∀ i j : Fin (2 * 1 + 1), normalised (crop 1 crossMap 1 1) (i, j) =
        if i = 1 ∧ j = 1 then 1 else if i = 1 ∨ j = 1 then 1 / 100000000 else 1 / 10000 := by
      intro i j
      unfold normalised
      simp only [hmax]
      rw [hmin, v]
      by_cases h1 : i = 1 ∧ j = 1
      · simp [h1]
      · by_cases h2 : i = 1 ∨ j = 1
        · simp [h1, h2]
        · simp [h1, h2]
    have hl : Real.log (1 / 100000000 : ℝ) = 2 * Real.log (1 / 10000) := by
      rw [show (1 / 100000000 : ℝ) = (1 / 10000) ^ 2 by norm_num, Real.log_pow]; norm_num
    have hg : gaussian2 (crop 1 crossMap 1 1) = .nan := by
      unfold gaussian2
      rw [if_neg (by rw [hmax]; norm_num)]
      unfold gaussian2Log
      simp only [sum9, hnorm, off0, off1, off2]
      simp only [show ((0 : Fin (2 * 1 + 1)) = 1) = False by simp, show ((2 : Fin (2 * 1 + 1)) = 1) = False by simp, if_true, if_false,
        and_self, and_true, and_false, or_true, or_false, or_self, false_and, true_and, true_or, false_or, hl, Real.log_one]
      generalize Real.log (1 / 10000) = z
      unfold quot
      rw [if_pos (by ring), if_pos (by left; ring)]
    unfold computeSubpix
    rw [if_neg (not_boundary hin)]
    simp only [hg]
    rw [if_neg (by rw [hg]; unfold TooLarge; exact id)]
    rfl

/-- The conditions of `C109_found` are met by a peak for all the methods. -/
example (m : Method) : IsSymmetric 1 ⟨3, 3, fun i0 i1 => 10 - (i0 - 1) ^ 2 - (i1 - 1) ^ 2⟩ 1 1 ∧
    NotLost m 1 (fun x y => (⟨3, 3, fun i0 i1 => 10 - (i0 - 1) ^ 2 - (i1 - 1) ^ 2⟩ : RMap).val (1 + y) (1 + x)) := by
  constructor
  · intro x y _ _
    simp only
    push_cast
    ring
  · cases m with
    | noSubpix => trivial
    | gaussian2 =>
      intro s hs
      simp only at hs ⊢
      have : s = 9 := by rcases hs with h | h <;> rw [h] <;> push_cast <;> norm_num
      subst this
      push_cast
      norm_num
    | gaussian => simp only [NotLost]; norm_num [Finset.sum_range_succ]
    | centroid => simp only [NotLost]; norm_num [Finset.sum_range_succ]

end Verif
