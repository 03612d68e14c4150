import Mathlib.Analysis.SpecialFunctions.Pow.Real
import Mathlib.Algebra.BigOperators.Fin
import Mathlib.Data.Fintype.BigOperators
import Mathlib.Data.Real.StarOrdered
import Mathlib.LinearAlgebra.Matrix.ToLin
import Mathlib.LinearAlgebra.Matrix.DotProduct
import Mathlib.LinearAlgebra.Matrix.NonsingularInverse
import Mathlib.Tactic.FinCases
import Mathlib.Tactic.Linarith
import Mathlib.Tactic.FieldSimp
import Mathlib.Tactic.Positivity
import Verif.Model.Subpix

/-!
# Sub-pixel position of a peak (C109, C110)
-/

namespace Verif
open Verif.Subpix
open Verif.LoopVectors (Method SubErr)

/-! ## Specification -/

/-- The four conditions of Moore and Penrose: `p` is the pseudo-inverse of the real matrix `m`
(`numpy.linalg.pinv`). -/
def IsPinv {ι κ : Type} [Fintype ι] [Fintype κ] (m : Matrix ι κ ℝ) (p : Matrix κ ι ℝ) : Prop :=
  m * p * m = m ∧ p * m * p = p ∧ (m * p).transpose = m * p ∧ (p * m).transpose = p * m

/-- The square of half size `n` around the line `iy` and the column `ix` is in the map. -/
def InMap (n : Nat) (c : RMap) (ix iy : Int) : Prop :=
  (n : Int) ≤ ix ∧ ix + n < c.nx ∧ (n : Int) ≤ iy ∧ iy + n < c.ny

/-- The correlation around the column `ix` and the line `iy`, up to the distance `n`, is a Gaussian of widths `sx` and
`sy` whose centre is at `(ix + x0, iy + y0)`. -/
def IsGaussian (n : Nat) (c : RMap) (ix iy : Int) (a x0 y0 sx sy : ℝ) : Prop :=
  0 < a ∧ 0 < sx ∧ 0 < sy ∧
  ∀ x y : Int, |x| ≤ n → |y| ≤ n →
    c.val (iy + y) (ix + x) = a * Real.exp (-((x - x0) ^ 2 / (2 * sx ^ 2)) - (y - y0) ^ 2 / (2 * sy ^ 2))

/-- The correlation around the column `ix` and the line `iy`, up to the distance `n`, is symmetric. -/
def IsSymmetric (n : Nat) (c : RMap) (ix iy : Int) : Prop :=
  ∀ x y : Int, |x| ≤ n → |y| ≤ n → c.val (iy + y) (ix + x) = c.val (iy - y) (ix - x)

/-! ## The pseudo-inverse -/

/-- The index of the crop for an offset. -/
def indexOf (n : Nat) (x : Int) (h : |x| ≤ n) : Fin (2 * n + 1) :=
  ⟨(x + n).toNat, by have := abs_le.mp h; omega⟩

theorem offset_indexOf (n : Nat) (x : Int) (h : |x| ≤ n) : offset n (indexOf n x h) = x := by
  unfold offset indexOf
  have := abs_le.mp h
  have e : (((x + n).toNat : Nat) : Int) = x + n := Int.toNat_of_nonneg (by omega)
  have e' : (((x + n).toNat : Nat) : ℝ) = x + n := by exact_mod_cast e
  simp only [e']
  ring

theorem offset_int (n : Nat) (i : Fin (2 * n + 1)) : offset n i = (((i.val : Int) - n : Int) : ℝ) := by
  unfold offset
  push_cast
  rfl

theorem abs_index (n : Nat) (i : Fin (2 * n + 1)) : |((i.val : Int) - n)| ≤ n := by
  have := i.isLt
  rw [abs_le]
  omega

theorem design_injective (n : Nat) (hn : 1 ≤ n) (a : Fin 5 → ℝ) (h : (design n).mulVec a = 0) : a = 0 := by
  have key : ∀ (x y : Int) (hx : |x| ≤ n) (hy : |y| ≤ n),
      (x : ℝ) ^ 2 * a 0 + (y : ℝ) ^ 2 * a 1 + x * a 2 + y * a 3 + a 4 = 0 := by
    intro x y hx hy
    have := congrFun h (indexOf n y hy, indexOf n x hx)
    simp only [Matrix.mulVec, dotProduct, design, Fin.sum_univ_five, offset_indexOf, Pi.zero_apply] at this
    simpa using this
  have h0 : |(0 : Int)| ≤ n := by simp
  have h1 : |(1 : Int)| ≤ n := by simpa using hn
  have h2 : |(-1 : Int)| ≤ n := by simpa using hn
  have k0 := key 0 0 h0 h0
  have k1 := key 1 0 h1 h0
  have k2 := key (-1) 0 h2 h0
  have k3 := key 0 1 h0 h1
  have k4 := key 0 (-1) h0 h2
  push_cast at k0 k1 k2 k3 k4
  ext k
  fin_cases k <;> simp <;> linarith

theorem pinv_mul (n : Nat) (hn : 1 ≤ n) (p : Matrix (Fin 5) (Fin (2 * n + 1) × Fin (2 * n + 1)) ℝ)
    (hp : IsPinv (design n) p) : p * design n = 1 := by
  have h : design n * (p * design n - 1) = 0 := by
    rw [Matrix.mul_sub, ← Matrix.mul_assoc, hp.1, Matrix.mul_one, sub_self]
  have h2 : p * design n - 1 = 0 := by
    ext i j
    have hc : (design n).mulVec (fun k => (p * design n - 1 : Matrix (Fin 5) (Fin 5) ℝ) k j) = 0 := by
      ext q
      exact congrFun (congrFun h q) j
    exact congrFun (design_injective n hn _ hc) i
  exact sub_eq_zero.mp h2

/-- The values whose logarithms are a combination of the columns of the matrix give the coefficients. -/
theorem pinv_coef (n : Nat) (hn : 1 ≤ n) (p : Matrix (Fin 5) (Fin (2 * n + 1) × Fin (2 * n + 1)) ℝ)
    (hp : IsPinv (design n) p) (a : Fin 5 → ℝ) : p.mulVec ((design n).mulVec a) = a := by
  rw [Matrix.mulVec_mulVec, pinv_mul n hn p hp, Matrix.one_mulVec]

/-! ## C109 -/

theorem not_boundary {n : Nat} {c : RMap} {ix iy : Int} (h : InMap n c ix iy) :
    ¬ (iy - n < 0 ∨ iy + n + 1 > c.ny ∨ ix - n < 0 ∨ ix + n + 1 > c.nx) := by
  unfold InMap at h
  omega

theorem crop_at (n : Nat) (c : RMap) (ix iy : Int) (p : Fin (2 * n + 1) × Fin (2 * n + 1)) :
    crop n c ix iy p = c.val (iy + ((p.1.val : Int) - n)) (ix + ((p.2.val : Int) - n)) := by
  unfold crop
  congr 1 <;> ring

/-- C109: with the method "2d_gaussian", the position of a Gaussian peak is exact for every `nsubpix`: all its centres
`(x0, y0)`, widths and heights, as soon as the centre is not farther than what the code accepts. -/
theorem C109_gaussian (n : Nat) (hn : 1 ≤ n) (p : Matrix (Fin 5) (Fin (2 * n + 1) × Fin (2 * n + 1)) ℝ)
    (hp : IsPinv (design n) p) (c : RMap) (ix iy : Int) (hin : InMap n c ix iy) (a x0 y0 sx sy : ℝ)
    (h : IsGaussian n c ix iy a x0 y0 sx sy) :
    (x0 ^ 2 + y0 ^ 2 ≤ 2 * (1 / 2 + (n : ℝ)) ^ 2 →
      computeSubpix .gaussian n p c ix iy = .ok (.fin (x0 + ix) (y0 + iy))) ∧
    (2 * (1 / 2 + (n : ℝ)) ^ 2 < x0 ^ 2 + y0 ^ 2 →
      computeSubpix .gaussian n p c ix iy = .error .wrongSubpix) := by
  obtain ⟨ha, hsx, hsy, hv⟩ := h
  have hsx2 : 0 < sx ^ 2 := by positivity
  have hsy2 : 0 < sy ^ 2 := by positivity
  let k : Fin 5 → ℝ := ![-(1 / (2 * sx ^ 2)), -(1 / (2 * sy ^ 2)), x0 / sx ^ 2, y0 / sy ^ 2,
    Real.log a - x0 ^ 2 / (2 * sx ^ 2) - y0 ^ 2 / (2 * sy ^ 2)]
  have hl : (fun q => logClamped (crop n c ix iy q)) = (design n).mulVec k := by
    ext q
    rw [crop_at, hv _ _ (abs_index n q.2) (abs_index n q.1)]
    unfold logClamped
    rw [if_neg (by rw [not_le]; positivity), Real.log_mul ha.ne' (Real.exp_ne_zero _), Real.log_exp]
    simp only [Matrix.mulVec, dotProduct, design, Fin.sum_univ_five, k, offset_int]
    simp
    field_simp
    ring
  have hk := pinv_coef n hn p hp k
  have hg : gaussian n p (crop n c ix iy) = some (.fin x0 y0) := by
    unfold gaussian
    simp only [hl, hk]
    have k0 : k 0 = -(1 / (2 * sx ^ 2)) := rfl
    have k1 : k 1 = -(1 / (2 * sy ^ 2)) := rfl
    have k2 : k 2 = x0 / sx ^ 2 := rfl
    have k3 : k 3 = y0 / sy ^ 2 := rfl
    have n0 : k 0 < 0 := by rw [k0]; have : 0 < 1 / (2 * sx ^ 2) := by positivity
                            linarith
    have n1 : k 1 < 0 := by rw [k1]; have : 0 < 1 / (2 * sy ^ 2) := by positivity
                            linarith
    rw [if_neg (by rintro (h | h) <;> linarith), if_neg (by rintro (⟨h, -⟩ | ⟨h, -⟩) <;> linarith),
      if_neg (by rintro (h | h) <;> linarith)]
    rw [div_pow, div_pow, Real.sq_sqrt (by linarith), Real.sq_sqrt (by linarith), k0, k1, k2, k3]
    congr 2
    · field_simp
    · field_simp
  unfold computeSubpix
  rw [if_neg (not_boundary hin)]
  simp only [hg]
  unfold finish
  constructor
  · intro hb
    rw [if_neg (by unfold TooLarge; exact not_lt.mpr hb)]
    rfl
  · intro hb
    rw [if_pos (by unfold TooLarge; exact hb)]

/-- The pseudo-inverse exists, for every `nsubpix` which is not zero. -/
theorem pinv_exists (n : Nat) (hn : 1 ≤ n) : ∃ p, IsPinv (design n) p := by
  have hinj : ∀ a, ((design n).transpose * design n).mulVec a = 0 → a = 0 := by
    intro a ha
    apply design_injective n hn
    have := (Matrix.conjTranspose_mul_self_mulVec_eq_zero (design n) a).mp
    rw [Matrix.conjTranspose_eq_transpose_of_trivial] at this
    exact this ha
  have hu : IsUnit ((design n).transpose * design n) := by
    rw [← Matrix.mulVec_injective_iff_isUnit]
    intro a b hab
    have := hinj (a - b) (by rw [Matrix.mulVec_sub]; exact sub_eq_zero.mpr hab)
    exact sub_eq_zero.mp this
  have hdet : IsUnit ((design n).transpose * design n).det := (Matrix.isUnit_iff_isUnit_det _).mp hu
  have hsym : ((design n).transpose * design n).transpose = (design n).transpose * design n := by
    rw [Matrix.transpose_mul, Matrix.transpose_transpose]
  have h1 : ((design n).transpose * design n)⁻¹ * (design n).transpose * design n = 1 := by
    rw [Matrix.mul_assoc]; exact Matrix.nonsing_inv_mul _ hdet
  refine ⟨((design n).transpose * design n)⁻¹ * (design n).transpose, ?_, ?_, ?_, ?_⟩
  · rw [Matrix.mul_assoc, h1, Matrix.mul_one]
  · rw [h1, Matrix.one_mul]
  · rw [Matrix.transpose_mul, Matrix.transpose_mul, Matrix.transpose_nonsing_inv, hsym, Matrix.transpose_transpose,
      Matrix.mul_assoc]
  · rw [h1, Matrix.transpose_one]

/-! ### Symmetric peaks -/

/-- The opposite point of the crop. -/
def opp (n : Nat) : (Fin (2 * n + 1) × Fin (2 * n + 1)) ≃ (Fin (2 * n + 1) × Fin (2 * n + 1)) :=
  Equiv.prodCongr Fin.revPerm Fin.revPerm

theorem offset_rev (n : Nat) (i : Fin (2 * n + 1)) : offset n i.rev = - offset n i := by
  unfold offset
  rw [Fin.val_rev]
  have := i.isLt
  have e : 2 * n + 1 - (i.val + 1) = 2 * n - i.val := by omega
  rw [e, Nat.cast_sub (by omega)]
  push_cast
  ring

theorem offset_opp1 (n : Nat) (p) : offset n (opp n p).1 = - offset n p.1 := offset_rev n p.1
theorem offset_opp2 (n : Nat) (p) : offset n (opp n p).2 = - offset n p.2 := offset_rev n p.2

theorem sum_odd (n : Nat) (f : Fin (2 * n + 1) × Fin (2 * n + 1) → ℝ) (h : ∀ p, f (opp n p) = - f p) :
    ∑ p, f p = 0 := by
  have e : ∑ p, f p = ∑ p, f (opp n p) := (Equiv.sum_comp (opp n) f).symm
  simp only [h, Finset.sum_neg_distrib] at e
  linarith

theorem crop_opp (n : Nat) (c : RMap) (ix iy : Int) (h : IsSymmetric n c ix iy) (p) :
    crop n c ix iy (opp n p) = crop n c ix iy p := by
  rw [crop_at, crop_at, h _ _ (abs_index n p.2) (abs_index n p.1)]
  have e : ∀ i : Fin (2 * n + 1), ((i.rev.val : Int) - n) = - ((i.val : Int) - n) := by
    intro i
    have := i.isLt
    rw [Fin.val_rev]
    omega
  have e1 : (((opp n p).1.val : Int) - n) = - ((p.1.val : Int) - n) := e p.1
  have e2 : (((opp n p).2.val : Int) - n) = - ((p.2.val : Int) - n) := e p.2
  rw [e1, e2]
  rfl

theorem centroid_symm (n : Nat) (v : Crop n) (h : ∀ p, v (opp n p) = v p) :
    centroid n v = if ∑ p, v p = 0 then .nan else .fin 0 0 := by
  have h1 : ∑ p, offset n p.2 * v p = 0 := sum_odd n _ (fun p => by rw [offset_opp2, h]; ring)
  have h2 : ∑ p, offset n p.1 * v p = 0 := sum_odd n _ (fun p => by rw [offset_opp1, h]; ring)
  unfold centroid quot
  rw [h1, h2]
  simp

/-- The normal equations of the least squares. -/
theorem pinv_normal {ι κ : Type} [Fintype ι] [Fintype κ] (m : Matrix ι κ ℝ) (p : Matrix κ ι ℝ) (hp : IsPinv m p)
    (v : ι → ℝ) : m.transpose.mulVec (m.mulVec (p.mulVec v)) = m.transpose.mulVec v := by
  have h : m.transpose * (m * p) = m.transpose := by
    rw [← hp.2.2.1, ← Matrix.transpose_mul, hp.1]
  rw [Matrix.mulVec_mulVec, Matrix.mulVec_mulVec, Matrix.mul_assoc, h]

theorem sum_sq_pos (n : Nat) (hn : 1 ≤ n) (g : Fin (2 * n + 1) × Fin (2 * n + 1) → Fin (2 * n + 1))
    (hg : ∃ p, g p = indexOf n 1 (by simpa using hn)) : 0 < ∑ p, offset n (g p) ^ 2 := by
  obtain ⟨p, hp⟩ := hg
  refine Finset.sum_pos' (fun q _ => sq_nonneg _) ⟨p, Finset.mem_univ _, ?_⟩
  rw [hp, offset_indexOf]
  norm_num

theorem coef_symm (n : Nat) (hn : 1 ≤ n) (p : Matrix (Fin 5) (Fin (2 * n + 1) × Fin (2 * n + 1)) ℝ)
    (hp : IsPinv (design n) p) (l : Crop n) (h : ∀ q, l (opp n q) = l q) :
    p.mulVec l 2 = 0 ∧ p.mulVec l 3 = 0 := by
  have hN := pinv_normal _ _ hp l
  set a := p.mulVec l with ha
  have expand : ∀ q, (design n).mulVec a q =
      offset n q.2 ^ 2 * a 0 + offset n q.1 ^ 2 * a 1 + offset n q.2 * a 2 + offset n q.1 * a 3 + a 4 := by
    intro q
    simp [Matrix.mulVec, dotProduct, design, Fin.sum_univ_five]
  have h2 := congrFun hN 2
  have h3 := congrFun hN 3
  have d2 : ∀ u : Crop n, (design n).transpose.mulVec u 2 = ∑ q, offset n q.2 * u q := by
    intro u; simp [Matrix.mulVec, dotProduct, design]
  have d3 : ∀ u : Crop n, (design n).transpose.mulVec u 3 = ∑ q, offset n q.1 * u q := by
    intro u; simp [Matrix.mulVec, dotProduct, design]
  have hxy : ∑ q : Fin (2 * n + 1) × Fin (2 * n + 1), offset n q.2 * offset n q.1 = 0 := by
    rw [Fintype.sum_prod_type]
    have : ∑ i : Fin (2 * n + 1), offset n i = 0 := by
      have e : ∑ i, offset n i = ∑ i : Fin (2 * n + 1), offset n i.rev := (Equiv.sum_comp Fin.revPerm (offset n)).symm
      simp only [offset_rev, Finset.sum_neg_distrib] at e
      linarith
    simp only [← Finset.sum_mul, this, zero_mul, Finset.sum_const_zero]
  have o2 : ∑ q, offset n q.2 * l q = 0 := sum_odd n _ (fun q => by rw [offset_opp2, h]; ring)
  have o3 : ∑ q, offset n q.1 * l q = 0 := sum_odd n _ (fun q => by rw [offset_opp1, h]; ring)
  rw [d2, d2, o2] at h2
  rw [d3, d3, o3] at h3
  constructor
  · have e : ∑ q, offset n q.2 * (design n).mulVec a q =
        ∑ q : Fin (2 * n + 1) × Fin (2 * n + 1), (offset n q.2 * (offset n q.2 ^ 2 * a 0 + offset n q.1 ^ 2 * a 1 + a 4)) +
          a 2 * ∑ q : Fin (2 * n + 1) × Fin (2 * n + 1), offset n q.2 ^ 2 +
          a 3 * ∑ q : Fin (2 * n + 1) × Fin (2 * n + 1), offset n q.2 * offset n q.1 := by
      rw [Finset.mul_sum, Finset.mul_sum, ← Finset.sum_add_distrib, ← Finset.sum_add_distrib]
      refine Finset.sum_congr rfl (fun q _ => ?_)
      rw [expand]; ring
    have z : ∑ q : Fin (2 * n + 1) × Fin (2 * n + 1), (offset n q.2 * (offset n q.2 ^ 2 * a 0 + offset n q.1 ^ 2 * a 1 + a 4)) = 0 :=
      sum_odd n _ (fun q => by rw [offset_opp1, offset_opp2]; ring)
    rw [e, z, hxy] at h2
    have hpos := sum_sq_pos n hn Prod.snd ⟨(0, indexOf n 1 (by simpa using hn)), rfl⟩
    simp only [zero_add, mul_zero, add_zero] at h2
    exact (mul_eq_zero.mp h2).resolve_right hpos.ne'
  · have e : ∑ q, offset n q.1 * (design n).mulVec a q =
        ∑ q : Fin (2 * n + 1) × Fin (2 * n + 1), (offset n q.1 * (offset n q.2 ^ 2 * a 0 + offset n q.1 ^ 2 * a 1 + a 4)) +
          a 3 * ∑ q : Fin (2 * n + 1) × Fin (2 * n + 1), offset n q.1 ^ 2 +
          a 2 * ∑ q : Fin (2 * n + 1) × Fin (2 * n + 1), offset n q.2 * offset n q.1 := by
      rw [Finset.mul_sum, Finset.mul_sum, ← Finset.sum_add_distrib, ← Finset.sum_add_distrib]
      refine Finset.sum_congr rfl (fun q _ => ?_)
      rw [expand]; ring
    have z : ∑ q : Fin (2 * n + 1) × Fin (2 * n + 1), (offset n q.1 * (offset n q.2 ^ 2 * a 0 + offset n q.1 ^ 2 * a 1 + a 4)) = 0 :=
      sum_odd n _ (fun q => by rw [offset_opp1, offset_opp2]; ring)
    rw [e, z, hxy] at h3
    have hpos := sum_sq_pos n hn Prod.fst ⟨(indexOf n 1 (by simpa using hn), 0), rfl⟩
    simp only [zero_add, mul_zero, add_zero] at h3
    exact (mul_eq_zero.mp h3).resolve_right hpos.ne'

theorem gaussian2Log_symm (l : Crop 1) (h : ∀ q, l (opp 1 q) = l q) :
    gaussian2Log l = .fin 0 0 ∨ gaussian2Log l = .nan := by
  have o2 : ∑ q, offset 1 q.2 * l q = 0 := sum_odd 1 _ (fun q => by rw [offset_opp2, h]; ring)
  have o3 : ∑ q, offset 1 q.1 * l q = 0 := sum_odd 1 _ (fun q => by rw [offset_opp1, h]; ring)
  unfold gaussian2Log quot
  simp only [o2, o3]
  split_ifs with h1 h2
  · exact .inr rfl
  · simp at h2
  · left; simp

theorem zero_not_large (n : Nat) : ¬ TooLarge n (.fin 0 0) := by
  unfold TooLarge
  have : (0 : ℝ) ≤ 2 * (1 / 2 + (n : ℝ)) ^ 2 := by positivity
  simp only [not_lt]
  linarith

/-- C109: the position of a symmetric peak is exact for all the methods, or it is NaN. It is not NaN for the method
"no_subpix", and for the methods "centroid" and "2d_gaussian" if the sum of the correlation around the peak is not
zero. -/
theorem C109_symmetric (m : Method) (nsubpix : Option Nat) (n : Nat) (hc : construct m nsubpix = .ok n) (hn : 1 ≤ n)
    (p : Matrix (Fin 5) (Fin (2 * n + 1) × Fin (2 * n + 1)) ℝ) (hp : IsPinv (design n) p) (c : RMap) (ix iy : Int)
    (hin : InMap n c ix iy) (h : IsSymmetric n c ix iy) :
    (computeSubpix m n p c ix iy = .ok (.fin ix iy) ∨ computeSubpix m n p c ix iy = .ok .nan) ∧
    (computeSubpix m n p c ix iy = .ok .nan → m = .gaussian2 ∨
      (m ≠ .noSubpix ∧ ∑ q, crop n c ix iy q = 0)) := by
  have hs := crop_opp n c ix iy h
  have hcen : finish n ix iy (centroid n (crop n c ix iy)) =
      if ∑ q, crop n c ix iy q = 0 then .ok .nan else .ok (.fin ix iy) := by
    rw [centroid_symm n _ hs]
    unfold finish
    by_cases h1 : ∑ q, crop n c ix iy q = 0
    · rw [if_pos h1, if_pos h1, if_neg (by unfold TooLarge; exact id)]
      rfl
    · rw [if_neg h1, if_neg h1, if_neg (zero_not_large n)]
      simp [shift]
  have hfin : finish n ix iy (.fin 0 0) = .ok (.fin ix iy) := by
    unfold finish
    rw [if_neg (zero_not_large n)]
    simp [shift]
  unfold computeSubpix
  rw [if_neg (not_boundary hin)]
  simp only [hcen]
  cases m with
  | gaussian =>
    have hg : gaussian n p (crop n c ix iy) = none ∨ gaussian n p (crop n c ix iy) = some (.fin 0 0) := by
      obtain ⟨e2, e3⟩ := coef_symm n hn p hp (fun q => logClamped (crop n c ix iy q)) (fun q => by rw [hs])
      unfold gaussian
      simp only [e2, e3]
      split_ifs with h1 h2 h3
      · exact .inl rfl
      · exact .inl rfl
      · simp only [and_true] at h2; exact (h2 h3).elim
      · right; simp
    rcases hg with hg | hg
    · simp only [hg]
      by_cases h1 : ∑ q, crop n c ix iy q = 0
      all_goals simp only [h1, if_true, if_false]
      · simp
      · simp
    · simp only [hg, hfin]
      simp
  | gaussian2 =>
    have hn1 : n = 1 := by
      unfold construct at hc
      split at hc
      · injection hc with hc; exact hc.symm
      · split_ifs at hc with h1
        injection hc with hc
        subst hc
        simpa using h1
    subst hn1
    have hmin : gaussian2 (crop 1 c ix iy) = .fin 0 0 ∨ gaussian2 (crop 1 c ix iy) = .nan := by
      unfold gaussian2
      split_ifs with h1
      · exact .inr rfl
      · apply gaussian2Log_symm
        intro q
        simp only [normalised, hs]
    rcases hmin with hg | hg
    · rw [hg, if_neg (zero_not_large 1)]
      exact ⟨.inl (by simp [shift]), fun _ => .inl rfl⟩
    · have hnl : ¬ TooLarge 1 .nan := by unfold TooLarge; exact id
      have hnl' : ¬ TooLarge 1 (gaussian2 (crop 1 c ix iy)) := by rw [hg]; exact hnl
      simp only [if_neg hnl', hg]
      exact ⟨.inr rfl, fun _ => .inl trivial⟩
  | centroid =>
    by_cases h1 : ∑ q, crop n c ix iy q = 0
    all_goals simp only [h1, if_true, if_false]
    · simp
    · simp
  | noSubpix =>
    simp only [hfin]
    simp

/-! ### The other methods are not exact -/

theorem sum9 (f : Fin (2 * 1 + 1) × Fin (2 * 1 + 1) → ℝ) : ∑ p, f p =
    f (0, 0) + f (0, 1) + f (0, 2) + (f (1, 0) + f (1, 1) + f (1, 2)) + (f (2, 0) + f (2, 1) + f (2, 2)) := by
  rw [Fintype.sum_prod_type]
  have h3 : ∀ g : Fin (2 * 1 + 1) → ℝ, ∑ i, g i = g 0 + g 1 + g 2 := fun g => Fin.sum_univ_three g
  simp only [h3]

theorem off0 : offset 1 0 = -1 := by unfold offset; norm_num
theorem off1 : offset 1 1 = 0 := by unfold offset; norm_num
theorem off2 : offset 1 2 = 1 := by unfold offset; norm_num

/-- A Gaussian peak with the values `1 8 4`, `2 16 8`, `1 8 4`. -/
noncomputable def peakMap : RMap :=
  ⟨3, 3, fun i0 i1 => (2 : ℝ) ^ (4 + (i1 - 1) - 2 * (i1 - 1) ^ 2 - (i0 - 1) ^ 2)⟩

theorem peakMap_gaussian : ∃ a sx sy, IsGaussian 1 peakMap 1 1 a (1 / 4) 0 sx sy := by
  have hl : 0 < Real.log 2 := Real.log_pos (by norm_num)
  refine ⟨Real.exp (Real.log 2 * (4 + 1 / 8)), Real.sqrt (1 / (4 * Real.log 2)), Real.sqrt (1 / (2 * Real.log 2)),
    Real.exp_pos _, Real.sqrt_pos.mpr (by positivity), Real.sqrt_pos.mpr (by positivity), ?_⟩
  intro x y _ _
  rw [Real.sq_sqrt (by positivity), Real.sq_sqrt (by positivity), ← Real.exp_add]
  have e : peakMap.val (1 + y) (1 + x) = (2 : ℝ) ^ (4 + x - 2 * x ^ 2 - y ^ 2) := by
    unfold peakMap
    simp only
    congr 1
    ring
  rw [e, ← Real.rpow_intCast, Real.rpow_def_of_pos (by norm_num)]
  congr 1
  push_cast
  field_simp
  ring

/-- A crop given by its values. -/
def tab9 (a b c d e f g h i : ℝ) : Crop 1 := fun p => ![![a, b, c], ![d, e, f], ![g, h, i]] p.1 p.2

section
variable (a b c d e f g h i : ℝ)
theorem tab00 : tab9 a b c d e f g h i (0, 0) = a := rfl
theorem tab01 : tab9 a b c d e f g h i (0, 1) = b := rfl
theorem tab02 : tab9 a b c d e f g h i (0, 2) = c := rfl
theorem tab10 : tab9 a b c d e f g h i (1, 0) = d := rfl
theorem tab11 : tab9 a b c d e f g h i (1, 1) = e := rfl
theorem tab12 : tab9 a b c d e f g h i (1, 2) = f := rfl
theorem tab20 : tab9 a b c d e f g h i (2, 0) = g := rfl
theorem tab21 : tab9 a b c d e f g h i (2, 1) = h := rfl
theorem tab22 : tab9 a b c d e f g h i (2, 2) = i := rfl

theorem tab_forall (P : ℝ → Prop) (p) (h0 : P a) (h1 : P b) (h2 : P c) (h3 : P d) (h4 : P e) (h5 : P f) (h6 : P g)
    (h7 : P h) (h8 : P i) : P (tab9 a b c d e f g h i p) := by
  obtain ⟨x, y⟩ := p
  fin_cases x <;> fin_cases y <;> assumption

theorem tab_map (F : ℝ → ℝ) : (fun p => F (tab9 a b c d e f g h i p)) =
    tab9 (F a) (F b) (F c) (F d) (F e) (F f) (F g) (F h) (F i) := by
  ext ⟨x, y⟩
  fin_cases x <;> fin_cases y <;> rfl

theorem centroid_tab9 : centroid 1 (tab9 a b c d e f g h i) =
    quot (-a + c - d + f - g + i) (-a - b - c + g + h + i) (a + b + c + d + e + f + g + h + i) := by
  unfold centroid
  simp only [sum9, off0, off1, off2, tab00, tab01, tab02, tab10, tab11, tab12, tab20, tab21, tab22]
  congr 1 <;> ring

theorem gaussian2Log_tab9 : gaussian2Log (tab9 a b c d e f g h i) =
    let c10 := (-a + c - d + f - g + i) / 6
    let c01 := (-a - b - c + g + h + i) / 6
    let c11 := (a - c - g + i) / 4
    let c20 := (a - 2 * b + c + d - 2 * e + f + g - 2 * h + i) / 6
    let c02 := (a + b + c - 2 * d - 2 * e - 2 * f + g + h + i) / 6
    quot (c11 * c01 - 2 * c10 * c02) (c11 * c10 - 2 * c01 * c20) (4 * c20 * c02 - c11 ^ 2) := by
  unfold gaussian2Log
  simp only [sum9, off0, off1, off2, tab00, tab01, tab02, tab10, tab11, tab12, tab20, tab21, tab22]
  congr 1 <;> ring
end

theorem minCrop_eq (v : Crop 1) (m : ℝ) (h1 : ∀ p, m ≤ v p) (h2 : ∃ p, v p = m) : minCrop v = m := by
  obtain ⟨p, hp⟩ := h2
  exact le_antisymm (hp ▸ Finset.inf'_le v (Finset.mem_univ p)) (Finset.le_inf' _ _ (fun q _ => h1 q))

theorem maxCrop_eq (v : Crop 1) (m : ℝ) (h1 : ∀ p, v p ≤ m) (h2 : ∃ p, v p = m) : maxCrop v = m := by
  obtain ⟨p, hp⟩ := h2
  exact le_antisymm (Finset.sup'_le _ _ (fun q _ => h1 q)) (hp ▸ Finset.le_sup' v (Finset.mem_univ p))

theorem crop_peakMap : crop 1 peakMap 1 1 = tab9 1 8 4 2 16 8 1 8 4 := by
  ext ⟨i, j⟩
  unfold crop peakMap
  fin_cases i <;> fin_cases j <;> norm_num <;> rfl

theorem inMap_peakMap : InMap 1 peakMap 1 1 := by unfold InMap peakMap; simp

/-- C109 fails for the method "centroid": a Gaussian peak centred at `1 + 1/4` is found at `1 + 3/13`. -/
theorem C109_centroid_fails : (∃ a sx sy, IsGaussian 1 peakMap 1 1 a (1 / 4) 0 sx sy) ∧ InMap 1 peakMap 1 1 ∧
    ∀ p, computeSubpix .centroid 1 p peakMap 1 1 = .ok (.fin (1 + 3 / 13) 1) := by
  refine ⟨peakMap_gaussian, inMap_peakMap, fun p => ?_⟩
  unfold computeSubpix
  rw [if_neg (not_boundary inMap_peakMap)]
  have hc : centroid 1 (crop 1 peakMap 1 1) = .fin (3 / 13) 0 := by
    rw [crop_peakMap, centroid_tab9]
    unfold quot
    rw [if_neg (by norm_num)]
    norm_num
  simp only [hc]
  unfold finish
  rw [if_neg (by unfold TooLarge; norm_num)]
  simp only [shift]
  congr 2
  · push_cast; ring
  · push_cast; ring

theorem gaussian2_peakMap : ∃ x, gaussian2 (crop 1 peakMap 1 1) = .fin x 0 ∧ 2 / 5 < x ∧ x < 1 / 2 := by
  have hmin : minCrop (tab9 1 8 4 2 16 8 1 8 4) = 1 :=
    minCrop_eq _ _ (fun p => by apply tab_forall <;> norm_num) ⟨(0, 0), rfl⟩
  have hsub : (fun p => tab9 1 8 4 2 16 8 1 8 4 p - minCrop (tab9 1 8 4 2 16 8 1 8 4)) =
      tab9 0 7 3 1 15 7 0 7 3 := by
    rw [hmin, tab_map _ _ _ _ _ _ _ _ _ (fun x => x - 1)]
    norm_num
  have hmax : maxCrop (tab9 0 7 3 1 15 7 0 7 3) = 15 :=
    maxCrop_eq _ _ (fun p => by apply tab_forall _ _ _ _ _ _ _ _ _ (fun x => x ≤ 15) <;> norm_num) ⟨(1, 1), rfl⟩
  have hlog : (fun p => Real.log (normalised (tab9 1 8 4 2 16 8 1 8 4) p)) =
      tab9 (Real.log (1 / 100000000)) (Real.log (7 / 15)) (Real.log (3 / 15)) (Real.log (1 / 15)) (Real.log (15 / 15))
        (Real.log (7 / 15)) (Real.log (1 / 100000000)) (Real.log (7 / 15)) (Real.log (3 / 15)) := by
    unfold normalised
    have hsub' := hsub
    rw [hmin] at hsub'
    simp only [hmin, hsub', hmax]
    rw [tab_map _ _ _ _ _ _ _ _ _ (fun x => Real.log (if (x - 1) / 15 = 0 then 1 / 100000000 else (x - 1) / 15))]
    norm_num
  have l1 : Real.log (1 / 100000000) = - (8 * Real.log 10) := by
    rw [one_div, Real.log_inv, show (100000000 : ℝ) = 10 ^ 8 by norm_num, Real.log_pow]; norm_num
  have l2 : Real.log (7 / 15) = Real.log 7 - (Real.log 3 + Real.log 5) := by
    rw [Real.log_div (by norm_num) (by norm_num), show (15 : ℝ) = 3 * 5 by norm_num,
      Real.log_mul (by norm_num) (by norm_num)]
  have l3 : Real.log (3 / 15) = - Real.log 5 := by
    rw [show (3 / 15 : ℝ) = 5⁻¹ by norm_num, Real.log_inv]
  have l4 : Real.log (1 / 15) = - (Real.log 3 + Real.log 5) := by
    rw [one_div, Real.log_inv, show (15 : ℝ) = 3 * 5 by norm_num, Real.log_mul (by norm_num) (by norm_num)]
  have l5 : Real.log (15 / 15) = 0 := by norm_num
  have i1 : 10 * Real.log 5 + 7 * Real.log 7 < 16 * Real.log 10 + 8 * Real.log 3 := by
    have : Real.log (5 ^ 10 * 7 ^ 7) < Real.log (10 ^ 16 * 3 ^ 8) := Real.log_lt_log (by norm_num) (by norm_num)
    rw [Real.log_mul (by norm_num) (by norm_num), Real.log_mul (by norm_num) (by norm_num), Real.log_pow, Real.log_pow,
      Real.log_pow, Real.log_pow] at this
    push_cast at this
    linarith
  have i2 : Real.log 3 < Real.log 5 := Real.log_lt_log (by norm_num) (by norm_num)
  have i3 : 0 < Real.log 7 := Real.log_pos (by norm_num)
  have i4 : Real.log 3 < Real.log 10 := Real.log_lt_log (by norm_num) (by norm_num)
  have i5 : 0 < Real.log 10 := Real.log_pos (by norm_num)
  unfold gaussian2
  rw [crop_peakMap, hsub, hmax, if_neg (by norm_num), hlog, gaussian2Log_tab9, l1, l2, l3, l4, l5]
  generalize Real.log 10 = T at *
  generalize Real.log 7 = S at *
  generalize Real.log 5 = F at *
  generalize Real.log 3 = H at *
  have d1 : 0 < 16 * T + 3 * S - 2 * H := by linarith
  have d2 : 0 < 16 * T - 2 * H := by linarith
  refine ⟨(16 * T - 2 * F + S) / (2 * (16 * T + 3 * S - 2 * H)), ?_, ?_, ?_⟩
  · have hd : 4 * (-(16 * T + 3 * S - 2 * H) / 6) * (-(16 * T - 2 * H) / 6) ≠ 0 := by
      apply mul_ne_zero
      · apply mul_ne_zero (by norm_num)
        apply div_ne_zero _ (by norm_num)
        linarith
      · apply div_ne_zero _ (by norm_num)
        linarith
    unfold quot
    refine (if_neg ?_).trans ?_
    · intro h
      apply hd
      rw [← h]
      ring
    · congr 1
      · rw [div_eq_div_iff]
        · ring
        · intro h
          apply hd
          rw [← h]
          ring
        · linarith
      · ring
  · rw [lt_div_iff₀ (by linarith)]
    linarith
  · rw [div_lt_iff₀ (by linarith)]
    linarith

/-- C109 fails for the default method, "2d_gaussian2", because it subtracts the minimum of the nine values: a Gaussian
peak centred at `1 + 1/4` is found between `1 + 2/5` and `1 + 1/2`. -/
theorem C109_gaussian2_fails : (∃ a sx sy, IsGaussian 1 peakMap 1 1 a (1 / 4) 0 sx sy) ∧ InMap 1 peakMap 1 1 ∧
    ∀ p, ∃ x, computeSubpix .gaussian2 1 p peakMap 1 1 = .ok (.fin (x + 1) 1) ∧ 2 / 5 < x ∧ x < 1 / 2 := by
  refine ⟨peakMap_gaussian, inMap_peakMap, fun p => ?_⟩
  obtain ⟨x, hx, h1, h2⟩ := gaussian2_peakMap
  refine ⟨x, ?_, h1, h2⟩
  unfold computeSubpix
  rw [if_neg (not_boundary inMap_peakMap)]
  have hl : ¬ TooLarge 1 (gaussian2 (crop 1 peakMap 1 1)) := by
    rw [hx]
    unfold TooLarge
    simp only [not_lt]
    norm_num
    nlinarith
  simp only [if_neg hl, hx, shift]
  norm_num

/-- The hypotheses of `C109_gaussian` are met by this peak, and its position is exact. -/
example : ∃ p, IsPinv (design 1) p ∧ computeSubpix .gaussian 1 p peakMap 1 1 = .ok (.fin (1 / 4 + 1) 1) := by
  obtain ⟨p, hp⟩ := pinv_exists 1 le_rfl
  obtain ⟨a, sx, sy, h⟩ := peakMap_gaussian
  refine ⟨p, hp, ?_⟩
  have := (C109_gaussian 1 le_rfl p hp peakMap 1 1 inMap_peakMap a (1 / 4) 0 sx sy h).1 (by norm_num)
  simpa using this

/-- A symmetric peak (the hypotheses of `C109_symmetric` are met). -/
example : ∃ p, IsPinv (design 2) p ∧ construct .gaussian (some 2) = .ok 2 ∧ construct .gaussian2 none = .ok 1 ∧
    construct .gaussian2 (some 2) = .error () ∧
    InMap 2 ⟨5, 5, fun i0 i1 => 1 / (1 + (i0 - 2) ^ 2 + (i1 - 2) ^ 2 + (i0 - 2) * (i1 - 2))⟩ 2 2 ∧
    IsSymmetric 2 ⟨5, 5, fun i0 i1 => 1 / (1 + (i0 - 2) ^ 2 + (i1 - 2) ^ 2 + (i0 - 2) * (i1 - 2))⟩ 2 2 := by
  obtain ⟨p, hp⟩ := pinv_exists 2 (by norm_num)
  refine ⟨p, hp, rfl, rfl, rfl, by unfold InMap; simp, ?_⟩
  intro x y _ _
  simp only
  push_cast
  congr 1
  ring

/-! ### "2d_gaussian2" is exact for a peak which is Gaussian after its normalisation -/

/-- The values around `(ix, iy)`, minus their minimum and divided by their range, are a Gaussian, with axes of any
direction, whose centre is at `(ix + x0, iy + y0)`; where the correlation is minimal the Gaussian is `1e-8`. -/
def IsNormalisedGaussian (c : RMap) (ix iy : Int) (k x0 y0 a b d : ℝ) : Prop :=
  0 < k ∧ 0 < a ∧ 0 < d ∧ b ^ 2 < a * d ∧
  ∃ lo hi, lo < hi ∧
    (∃ x y : Int, |x| ≤ 1 ∧ |y| ≤ 1 ∧ c.val (iy + y) (ix + x) = lo) ∧
    (∃ x y : Int, |x| ≤ 1 ∧ |y| ≤ 1 ∧ c.val (iy + y) (ix + x) = hi) ∧
    ∀ x y : Int, |x| ≤ 1 → |y| ≤ 1 →
      let g := k * Real.exp (-(a * (x - x0) ^ 2 + 2 * b * (x - x0) * (y - y0) + d * (y - y0) ^ 2))
      lo ≤ c.val (iy + y) (ix + x) ∧ c.val (iy + y) (ix + x) ≤ hi ∧
      (c.val (iy + y) (ix + x) = lo → g = 1 / 100000000) ∧
      (c.val (iy + y) (ix + x) ≠ lo → g = (c.val (iy + y) (ix + x) - lo) / (hi - lo))

theorem crop_of_offset (n : Nat) (c : RMap) (ix iy x y : Int) (hx : |x| ≤ n) (hy : |y| ≤ n) :
    crop n c ix iy (indexOf n y hy, indexOf n x hx) = c.val (iy + y) (ix + x) := by
  rw [crop_at]
  have := abs_le.mp hx
  have := abs_le.mp hy
  have e1 : (((indexOf n y hy).val : Int) - n) = y := by unfold indexOf; simp only; omega
  have e2 : (((indexOf n x hx).val : Int) - n) = x := by unfold indexOf; simp only; omega
  rw [e1, e2]

theorem gaussian2Log_quadratic (k x0 y0 a b d : ℝ) (hdet : b ^ 2 < a * d) (l : Crop 1)
    (h : ∀ p, l p = k - (a * (offset 1 p.2 - x0) ^ 2 + 2 * b * (offset 1 p.2 - x0) * (offset 1 p.1 - y0) +
      d * (offset 1 p.1 - y0) ^ 2)) : gaussian2Log l = .fin x0 y0 := by
  unfold gaussian2Log
  simp only [sum9, h, off0, off1, off2]
  unfold quot
  refine (if_neg ?_).trans ?_
  · intro h0
    have : 4 * (a * d - b ^ 2) = 0 := by rw [← h0]; ring
    linarith
  · congr 1
    · rw [div_eq_iff]
      · ring
      · intro h0
        have : 4 * (a * d - b ^ 2) = 0 := by rw [← h0]; ring
        linarith
    · rw [div_eq_iff]
      · ring
      · intro h0
        have : 4 * (a * d - b ^ 2) = 0 := by rw [← h0]; ring
        linarith

/-- C109 for the method "2d_gaussian2". What is missing: a peak which is Gaussian without the subtraction of the
minimum (`C109_gaussian2_fails`). -/
theorem C109_gaussian2_partial (p : Matrix (Fin 5) (Fin (2 * 1 + 1) × Fin (2 * 1 + 1)) ℝ) (c : RMap) (ix iy : Int)
    (hin : InMap 1 c ix iy) (k x0 y0 a b d : ℝ) (h : IsNormalisedGaussian c ix iy k x0 y0 a b d)
    (hs : x0 ^ 2 + y0 ^ 2 ≤ 2 * (3 / 2) ^ 2) :
    computeSubpix .gaussian2 1 p c ix iy = .ok (.fin (x0 + ix) (y0 + iy)) := by
  obtain ⟨hk, ha, hd, hdet, lo, hi, hlh, ⟨xl, yl, hxl, hyl, hlo⟩, ⟨xh, yh, hxh, hyh, hhi⟩, hv⟩ := h
  have hle : ∀ q, lo ≤ crop 1 c ix iy q ∧ crop 1 c ix iy q ≤ hi := by
    intro q
    rw [crop_at]
    have := hv _ _ (abs_index 1 q.2) (abs_index 1 q.1)
    exact ⟨this.1, this.2.1⟩
  have hmin : minCrop (crop 1 c ix iy) = lo :=
    minCrop_eq _ _ (fun q => (hle q).1) ⟨_, (crop_of_offset 1 c ix iy xl yl hxl hyl).trans hlo⟩
  have hmax : maxCrop (fun q => crop 1 c ix iy q - minCrop (crop 1 c ix iy)) = hi - lo := by
    rw [hmin]
    refine maxCrop_eq _ _ (fun q => by linarith [(hle q).2]) ⟨(indexOf 1 yh hyh, indexOf 1 xh hxh), ?_⟩
    show crop 1 c ix iy _ - lo = hi - lo
    rw [crop_of_offset 1 c ix iy xh yh hxh hyh, hhi]
  have hpos : 0 < hi - lo := by linarith
  have hg : gaussian2 (crop 1 c ix iy) = .fin x0 y0 := by
    unfold gaussian2
    rw [if_neg (by rw [hmax]; exact hpos.ne')]
    apply gaussian2Log_quadratic (Real.log k) x0 y0 a b d hdet
    intro q
    have hnorm : normalised (crop 1 c ix iy) q = k * Real.exp (-(a * (offset 1 q.2 - x0) ^ 2 +
        2 * b * (offset 1 q.2 - x0) * (offset 1 q.1 - y0) + d * (offset 1 q.1 - y0) ^ 2)) := by
      unfold normalised
      simp only [hmax]
      rw [hmin]
      have := hv _ _ (abs_index 1 q.2) (abs_index 1 q.1)
      obtain ⟨-, -, h3, h4⟩ := this
      rw [crop_at, offset_int, offset_int]
      by_cases he : c.val (iy + ((q.1.val : Int) - (1 : Nat))) (ix + ((q.2.val : Int) - (1 : Nat))) = lo
      · rw [if_pos (by rw [he, sub_self, zero_div]), h3 he]
      · rw [if_neg (div_ne_zero (sub_ne_zero.mpr he) hpos.ne'), h4 he]
    rw [hnorm, Real.log_mul hk.ne' (Real.exp_ne_zero _), Real.log_exp]
    ring
  unfold computeSubpix
  rw [if_neg (not_boundary hin)]
  have hl : ¬ TooLarge 1 (gaussian2 (crop 1 c ix iy)) := by
    rw [hg]
    unfold TooLarge
    simp only [not_lt]
    refine hs.trans (le_of_eq ?_)
    norm_num
  simp only [if_neg hl, hg, shift]

/-- Exponents of a tilted Gaussian of ten. -/
def tiltedExp (x y : Int) : Int := x - 3 * x ^ 2 - 3 * y ^ 2 - x * y

/-- The values are powers of ten, but zero at the minimum. -/
noncomputable def tiltedMap : RMap :=
  ⟨3, 3, fun i0 i1 => if i0 = 0 ∧ i1 = 0 then 0 else (10 : ℝ) ^ tiltedExp (i1 - 1) (i0 - 1)⟩

/-- The hypotheses of `C109_gaussian2_partial` are met by a tilted Gaussian centred at `(1 + 6/35, 1 - 1/35)`. -/
example : ∃ k a b d, IsNormalisedGaussian tiltedMap 1 1 k (6 / 35) (-1 / 35) a b d := by
  have hl : 0 < Real.log 10 := Real.log_pos (by norm_num)
  refine ⟨Real.exp (Real.log 10 * (3 / 35)), 3 * Real.log 10, Real.log 10 / 2, 3 * Real.log 10, Real.exp_pos _,
    by positivity, by positivity, by nlinarith, 0, 1, by norm_num, ⟨-1, -1, by norm_num, by norm_num, ?_⟩,
    ⟨0, 0, by norm_num, by norm_num, ?_⟩, ?_⟩
  · unfold tiltedMap; simp
  · unfold tiltedMap tiltedExp; simp
  · intro x y hx hy
    have hg : Real.exp (Real.log 10 * (3 / 35)) * Real.exp (-(3 * Real.log 10 * (x - 6 / 35) ^ 2 +
        2 * (Real.log 10 / 2) * (x - 6 / 35) * (y - -1 / 35) + 3 * Real.log 10 * (y - -1 / 35) ^ 2)) =
        (10 : ℝ) ^ tiltedExp x y := by
      rw [← Real.exp_add, ← Real.rpow_intCast, Real.rpow_def_of_pos (by norm_num)]
      congr 1
      unfold tiltedExp
      push_cast
      ring
    have hval : tiltedMap.val (1 + y) (1 + x) = if y = -1 ∧ x = -1 then 0 else (10 : ℝ) ^ tiltedExp x y := by
      unfold tiltedMap
      simp only [add_sub_cancel_left]
      congr 1
      apply propext
      constructor <;> rintro ⟨h1, h2⟩ <;> constructor <;> omega
    simp only [hg, hval]
    have hx' := abs_le.mp hx
    have hy' := abs_le.mp hy
    have hle : tiltedExp x y ≤ 0 := by
      unfold tiltedExp
      have : x = -1 ∨ x = 0 ∨ x = 1 := by omega
      have : y = -1 ∨ y = 0 ∨ y = 1 := by omega
      rcases ‹x = -1 ∨ _› with h | h | h <;> rcases ‹y = -1 ∨ _› with h' | h' | h' <;> subst h <;> subst h' <;> decide
    by_cases he : y = -1 ∧ x = -1
    · rw [if_pos he]
      refine ⟨le_rfl, by norm_num, fun _ => ?_, fun h => absurd rfl h⟩
      rw [he.1, he.2, show tiltedExp (-1) (-1) = -8 by decide]
      norm_num
    · rw [if_neg he]
      refine ⟨by positivity, zpow_le_one_of_nonpos₀ (by norm_num) hle, fun h => ?_, fun _ => by norm_num⟩
      exact absurd h (by positivity)

/-! ## C110 -/

/-- The same map in other units, and with another origin. -/
def rescaled (s o : ℝ) (c : RMap) : RMap := { c with val := fun i0 i1 => s * c.val i0 i1 + o }

theorem crop_rescaled (n : Nat) (s o : ℝ) (c : RMap) (ix iy : Int) :
    crop n (rescaled s o c) ix iy = fun q => s * crop n c ix iy q + o := rfl

theorem minCrop_affine (s o : ℝ) (hs : 0 < s) (v : Crop 1) : minCrop (fun q => s * v q + o) = s * minCrop v + o := by
  obtain ⟨q, -, hq⟩ := Finset.exists_mem_eq_inf' ⟨((0 : Fin (2 * 1 + 1)), (0 : Fin (2 * 1 + 1))), Finset.mem_univ _⟩ v
  refine minCrop_eq _ _ (fun p => ?_) ⟨q, ?_⟩
  · have : minCrop v ≤ v p := Finset.inf'_le v (Finset.mem_univ p)
    nlinarith
  · show s * v q + o = _
    rw [show v q = minCrop v from hq.symm]

theorem maxCrop_scale (s : ℝ) (hs : 0 < s) (v : Crop 1) : maxCrop (fun q => s * v q) = s * maxCrop v := by
  obtain ⟨q, -, hq⟩ := Finset.exists_mem_eq_sup' ⟨((0 : Fin (2 * 1 + 1)), (0 : Fin (2 * 1 + 1))), Finset.mem_univ _⟩ v
  refine maxCrop_eq _ _ (fun p => ?_) ⟨q, ?_⟩
  · have : v p ≤ maxCrop v := Finset.le_sup' v (Finset.mem_univ p)
    nlinarith
  · show s * v q = _
    rw [show v q = maxCrop v from hq.symm]

theorem gaussian2_affine (s o : ℝ) (hs : 0 < s) (v : Crop 1) : gaussian2 (fun q => s * v q + o) = gaussian2 v := by
  have hsub : (fun q => s * v q + o - minCrop (fun q => s * v q + o)) = fun q => s * (v q - minCrop v) := by
    ext q
    rw [minCrop_affine s o hs]
    ring
  have hmax : maxCrop (fun q => s * v q + o - minCrop (fun q => s * v q + o)) =
      s * maxCrop (fun q => v q - minCrop v) := by
    rw [hsub, maxCrop_scale s hs (fun q => v q - minCrop v)]
  have hnorm : normalised (fun q => s * v q + o) = normalised v := by
    ext q
    unfold normalised
    simp only [hmax]
    have e : (s * v q + o - minCrop (fun q => s * v q + o)) / (s * maxCrop (fun q => v q - minCrop v)) =
        (v q - minCrop v) / maxCrop (fun q => v q - minCrop v) := by
      rw [congrFun hsub q, mul_div_mul_left _ _ hs.ne']
    rw [e]
  unfold gaussian2
  rw [hmax, hnorm]
  by_cases h : maxCrop (fun q => v q - minCrop v) = 0
  · rw [if_pos h, if_pos (by rw [h, mul_zero])]
  · rw [if_neg h, if_neg (mul_ne_zero hs.ne' h)]

theorem centroid_scale (n : Nat) (s : ℝ) (hs : 0 < s) (v : Crop n) : centroid n (fun q => s * v q + 0) = centroid n v := by
  have e1 : ∑ q, offset n q.2 * (s * v q + 0) = s * ∑ q, offset n q.2 * v q := by
    rw [Finset.mul_sum]; exact Finset.sum_congr rfl (fun q _ => by ring)
  have e2 : ∑ q, offset n q.1 * (s * v q + 0) = s * ∑ q, offset n q.1 * v q := by
    rw [Finset.mul_sum]; exact Finset.sum_congr rfl (fun q _ => by ring)
  have e3 : ∑ q, (s * v q + 0) = s * ∑ q, v q := by
    rw [Finset.mul_sum]; exact Finset.sum_congr rfl (fun q _ => by ring)
  unfold centroid quot
  rw [e1, e2, e3]
  simp only [mul_eq_zero, hs.ne', false_or, mul_div_mul_left _ _ hs.ne']

theorem gaussian_scale (n : Nat) (hn : 1 ≤ n) (p : Matrix (Fin 5) (Fin (2 * n + 1) × Fin (2 * n + 1)) ℝ)
    (hp : IsPinv (design n) p) (s : ℝ) (hs : 0 < s) (v : Crop n) (hv : ∀ q, 0 < v q) :
    gaussian n p (fun q => s * v q + 0) = gaussian n p v := by
  have hl : (fun q => logClamped (s * v q + 0)) =
      (fun q => logClamped (v q)) + (design n).mulVec ![0, 0, 0, 0, Real.log s] := by
    ext q
    have : 0 < s * v q := mul_pos hs (hv q)
    unfold logClamped
    rw [if_neg (by rw [add_zero]; exact not_le.mpr this), add_zero, Real.log_mul hs.ne' (hv q).ne']
    simp only [Pi.add_apply]
    rw [if_neg (not_le.mpr (hv q))]
    simp [Matrix.mulVec, dotProduct, design, Fin.sum_univ_five]
    ring
  have hc : p.mulVec (fun q => logClamped (s * v q + 0)) =
      p.mulVec (fun q => logClamped (v q)) + ![0, 0, 0, 0, Real.log s] := by
    rw [hl, Matrix.mulVec_add, pinv_coef n hn p hp]
  have e : ∀ k : Fin 5, ![0, 0, 0, 0, Real.log s] k = 0 → p.mulVec (fun q => logClamped (s * v q + 0)) k =
      p.mulVec (fun q => logClamped (v q)) k := by
    intro k hk
    rw [hc, Pi.add_apply, hk, add_zero]
  unfold gaussian
  simp only [e 0 rfl, e 1 rfl, e 2 rfl, e 3 rfl]

/-- C110: the position does not change when the correlation is multiplied by a positive number. For the method
"2d_gaussian", the values of the correlation around the peak have to be positive. -/
theorem C110_scale_partial (m : Method) (nsubpix : Option Nat) (n : Nat) (hc : construct m nsubpix = .ok n)
    (hn : 1 ≤ n) (p : Matrix (Fin 5) (Fin (2 * n + 1) × Fin (2 * n + 1)) ℝ) (hp : IsPinv (design n) p) (c : RMap)
    (ix iy : Int) (s : ℝ) (hs : 0 < s)
    (hpos : m = .gaussian → ∀ x y : Int, |x| ≤ n → |y| ≤ n → 0 < c.val (iy + y) (ix + x)) :
    computeSubpix m n p (rescaled s 0 c) ix iy = computeSubpix m n p c ix iy := by
  have hcen : centroid n (crop n (rescaled s 0 c) ix iy) = centroid n (crop n c ix iy) := by
    rw [crop_rescaled]; exact centroid_scale n s hs _
  have hg2 : gaussian2 (crop 1 (rescaled s 0 c) ix iy) = gaussian2 (crop 1 c ix iy) := by
    rw [crop_rescaled]; exact gaussian2_affine s 0 hs _
  have hg : m = .gaussian → gaussian n p (crop n (rescaled s 0 c) ix iy) = gaussian n p (crop n c ix iy) := by
    intro hm
    rw [crop_rescaled]
    exact gaussian_scale n hn p hp s hs _ (fun q => by
      rw [crop_at]; exact hpos hm _ _ (abs_index n q.2) (abs_index n q.1))
  unfold computeSubpix
  dsimp only
  rw [hcen, hg2]
  cases m with
  | gaussian => simp only [hg rfl]; rfl
  | gaussian2 => rfl
  | centroid => rfl
  | noSubpix => rfl

/-- C110 for the method "2d_gaussian2": neither the units nor the origin of the correlation change the position,
when the fit is accepted. -/
theorem C110_offset (p : Matrix (Fin 5) (Fin (2 * 1 + 1) × Fin (2 * 1 + 1)) ℝ) (c : RMap) (ix iy : Int) (s o : ℝ)
    (hs : 0 < s) (hacc : ¬ TooLarge 1 (gaussian2 (crop 1 c ix iy))) :
    computeSubpix .gaussian2 1 p (rescaled s o c) ix iy = computeSubpix .gaussian2 1 p c ix iy := by
  have hg2 : gaussian2 (crop 1 (rescaled s o c) ix iy) = gaussian2 (crop 1 c ix iy) := by
    rw [crop_rescaled]; exact gaussian2_affine s o hs _
  unfold computeSubpix
  dsimp only
  rw [hg2, if_neg hacc, if_neg hacc]
  rfl

/-- The pseudo-inverse for `nsubpix = 1`. -/
noncomputable def pinv1 : Matrix (Fin 5) (Fin (2 * 1 + 1) × Fin (2 * 1 + 1)) ℝ :=
  fun k q => ![(3 * offset 1 q.2 ^ 2 - 2) / 6, (3 * offset 1 q.1 ^ 2 - 2) / 6, offset 1 q.2 / 6, offset 1 q.1 / 6,
    (5 - 3 * offset 1 q.2 ^ 2 - 3 * offset 1 q.1 ^ 2) / 9] k

theorem isPinv_pinv1 : IsPinv (design 1) pinv1 := by
  have h1 : pinv1 * design 1 = 1 := by
    ext i j
    rw [Matrix.mul_apply, sum9]
    unfold pinv1 design
    simp only [off0, off1, off2]
    fin_cases i <;> fin_cases j <;> simp <;> norm_num
  refine ⟨by rw [Matrix.mul_assoc, h1, Matrix.mul_one], by rw [h1, Matrix.one_mul], ?_, by rw [h1, Matrix.transpose_one]⟩
  ext q r
  rw [Matrix.transpose_apply, Matrix.mul_apply, Matrix.mul_apply]
  unfold pinv1 design
  simp [Fin.sum_univ_five]
  ring

theorem gaussian_tab9 (a b c d e f g h i : ℝ) :
    pinv1.mulVec (tab9 a b c d e f g h i) 0 = (a - 2 * b + c + d - 2 * e + f + g - 2 * h + i) / 6 ∧
    pinv1.mulVec (tab9 a b c d e f g h i) 1 = (a + b + c - 2 * d - 2 * e - 2 * f + g + h + i) / 6 ∧
    pinv1.mulVec (tab9 a b c d e f g h i) 2 = (-a + c - d + f - g + i) / 6 ∧
    pinv1.mulVec (tab9 a b c d e f g h i) 3 = (-a - b - c + g + h + i) / 6 := by
  unfold Matrix.mulVec dotProduct
  simp only [sum9, tab00, tab01, tab02, tab10, tab11, tab12, tab20, tab21, tab22]
  unfold pinv1
  simp only [off0, off1, off2]
  refine ⟨?_, ?_, ?_, ?_⟩ <;> simp <;> ring

/-- A peak with a negative value of the correlation in the corner of its neighbourhood. -/
noncomputable def negMap : RMap :=
  ⟨3, 3, fun i0 i1 => if i0 = 0 ∧ i1 = 0 then -1 else if i0 = 1 ∧ i1 = 1 then 2 else 1⟩

theorem crop_negMap (s : ℝ) : crop 1 (rescaled s 0 negMap) 1 1 = tab9 (-s) s s s (2 * s) s s s s := by
  ext ⟨i, j⟩
  unfold crop rescaled negMap
  fin_cases i <;> fin_cases j <;> norm_num [tab9] <;> ring

theorem inMap_negMap (s : ℝ) : InMap 1 (rescaled s 0 negMap) 1 1 := by unfold InMap rescaled negMap; simp

theorem subpix_negMap (s : ℝ) (hs : 0 < s) (K : ℝ) (hK : K = Real.log s - Real.log (1 / 1000000))
    (hK0 : 0 ≤ K) :
    computeSubpix .gaussian 1 pinv1 (rescaled s 0 negMap) 1 1 =
      .ok (.fin (K / (2 * (K + 2 * Real.log 2)) + 1) (K / (2 * (K + 2 * Real.log 2)) + 1)) := by
  have hl2 : 0 < Real.log 2 := Real.log_pos (by norm_num)
  have hlog : (fun q => logClamped (crop 1 (rescaled s 0 negMap) 1 1 q)) =
      tab9 (Real.log s - K) (Real.log s) (Real.log s) (Real.log s) (Real.log 2 + Real.log s) (Real.log s) (Real.log s)
        (Real.log s) (Real.log s) := by
    rw [crop_negMap, tab_map]
    have e1 : logClamped (-s) = Real.log s - K := by
      unfold logClamped
      rw [if_pos (by linarith), hK]
      ring
    have e2 : logClamped s = Real.log s := by
      unfold logClamped
      rw [if_neg (by linarith)]
    have e3 : logClamped (2 * s) = Real.log 2 + Real.log s := by
      unfold logClamped
      rw [if_neg (by linarith), Real.log_mul (by norm_num) hs.ne']
    rw [e1, e2, e3]
  obtain ⟨c0, c1, c2, c3⟩ := gaussian_tab9 (Real.log s - K) (Real.log s) (Real.log s) (Real.log s)
    (Real.log 2 + Real.log s) (Real.log s) (Real.log s) (Real.log s) (Real.log s)
  have hd : 0 < 2 * (K + 2 * Real.log 2) := by linarith
  have hg : gaussian 1 pinv1 (crop 1 (rescaled s 0 negMap) 1 1) =
      some (.fin (K / (2 * (K + 2 * Real.log 2))) (K / (2 * (K + 2 * Real.log 2)))) := by
    unfold gaussian
    dsimp only
    rw [hlog, c0, c1, c2, c3]
    rw [if_neg (by rintro (h | h) <;> linarith), if_neg (by rintro (⟨h, -⟩ | ⟨h, -⟩) <;> linarith),
      if_neg (by rintro (h | h) <;> linarith)]
    rw [div_pow, div_pow, Real.sq_sqrt (by linarith), Real.sq_sqrt (by linarith)]
    congr 2
    · rw [one_pow, mul_one_div, div_eq_div_iff (by linarith) (by linarith)]
      ring
    · rw [one_pow, mul_one_div, div_eq_div_iff (by linarith) (by linarith)]
      ring
  have hsmall : K / (2 * (K + 2 * Real.log 2)) ≤ 1 := by
    rw [div_le_one hd]; linarith
  have hnn : 0 ≤ K / (2 * (K + 2 * Real.log 2)) := div_nonneg hK0 hd.le
  unfold computeSubpix
  rw [if_neg (not_boundary (inMap_negMap s))]
  simp only [hg]
  unfold finish
  rw [if_neg (by unfold TooLarge; simp only [not_lt]; norm_num; nlinarith)]
  simp only [shift]
  norm_num

/-- C110 fails for the method "2d_gaussian" when a value around the peak is not positive (the code gives it the value
`1e-6` whatever the units of the correlation): the peak of the map divided by a million is at the centre of the pixel,
the peak of the map itself is not. -/
theorem C110_gaussian_fails : ∃ (p : _) (c : RMap) (x : ℝ), IsPinv (design 1) p ∧ InMap 1 c 1 1 ∧ 0 < x ∧
    computeSubpix .gaussian 1 p (rescaled 1 0 c) 1 1 = .ok (.fin (x + 1) (x + 1)) ∧
    computeSubpix .gaussian 1 p (rescaled (1 / 1000000) 0 c) 1 1 = .ok (.fin 1 1) := by
  have hl2 : 0 < Real.log 2 := Real.log_pos (by norm_num)
  have hm : 0 < Real.log 1 - Real.log (1 / 1000000) := by
    rw [Real.log_one, one_div, Real.log_inv]
    have : 0 < Real.log 1000000 := Real.log_pos (by norm_num)
    linarith
  refine ⟨pinv1, negMap, _, isPinv_pinv1, inMap_negMap 1, ?_, subpix_negMap 1 one_pos _ rfl hm.le, ?_⟩
  · exact div_pos hm (by linarith)
  · rw [subpix_negMap (1 / 1000000) (by norm_num) 0 (by ring) le_rfl]
    norm_num

/-- C110 fails for the method "centroid" when a constant is added to the correlation. -/
theorem C110_centroid_fails : ∀ p, computeSubpix .centroid 1 p (rescaled 1 0 peakMap) 1 1 = .ok (.fin (1 + 3 / 13) 1) ∧
    computeSubpix .centroid 1 p (rescaled 1 1 peakMap) 1 1 = .ok (.fin (1 + 12 / 61) 1) := by
  intro p
  have h : ∀ o, crop 1 (rescaled 1 o peakMap) 1 1 =
      tab9 (1 + o) (8 + o) (4 + o) (2 + o) (16 + o) (8 + o) (1 + o) (8 + o) (4 + o) := by
    intro o
    rw [crop_rescaled, crop_peakMap, tab_map _ _ _ _ _ _ _ _ _ (fun x => 1 * x + o)]
    norm_num
  have hin : ∀ o, InMap 1 (rescaled 1 o peakMap) 1 1 := fun o => inMap_peakMap
  have hc0 : centroid 1 (crop 1 (rescaled 1 0 peakMap) 1 1) = .fin (3 / 13) 0 := by
    rw [h, centroid_tab9]
    unfold quot
    rw [if_neg (by norm_num)]
    norm_num
  have hc1 : centroid 1 (crop 1 (rescaled 1 1 peakMap) 1 1) = .fin (12 / 61) 0 := by
    rw [h, centroid_tab9]
    unfold quot
    rw [if_neg (by norm_num)]
    norm_num
  constructor
  · unfold computeSubpix
    rw [if_neg (not_boundary (hin 0))]
    simp only [hc0]
    unfold finish
    rw [if_neg (by unfold TooLarge; norm_num)]
    simp only [shift]
    norm_num
  · unfold computeSubpix
    rw [if_neg (not_boundary (hin 1))]
    simp only [hc1]
    unfold finish
    rw [if_neg (by unfold TooLarge; norm_num)]
    simp only [shift]
    norm_num

/-- The hypotheses of `C110_scale_partial` and `C110_offset` are met by the Gaussian peak. -/
example : (∀ x y : Int, |x| ≤ (1 : Nat) → |y| ≤ (1 : Nat) → 0 < peakMap.val (1 + y) (1 + x)) ∧
    IsPinv (design 1) pinv1 ∧ ¬ TooLarge 1 (gaussian2 (crop 1 peakMap 1 1)) := by
  refine ⟨fun x y _ _ => by unfold peakMap; positivity, isPinv_pinv1, ?_⟩
  obtain ⟨x, hx, h1, h2⟩ := gaussian2_peakMap
  rw [hx]
  unfold TooLarge
  simp only [not_lt]
  norm_num
  nlinarith

/-! ## The centroid is in the neighbourhood -/

/-- C109: when the correlation is not negative around the peak, the method "centroid" gives a position in the square of
half size `nsubpix`, or NaN if the correlation is zero on this square; it never refuses the vector for this. -/
theorem C109_centroid_inside (n : Nat) (p : Matrix (Fin 5) (Fin (2 * n + 1) × Fin (2 * n + 1)) ℝ) (c : RMap)
    (ix iy : Int) (hin : InMap n c ix iy)
    (h : ∀ x y : Int, |x| ≤ n → |y| ≤ n → 0 ≤ c.val (iy + y) (ix + x)) :
    (∃ x y : ℝ, computeSubpix .centroid n p c ix iy = .ok (.fin x y) ∧ |x - ix| ≤ n ∧ |y - iy| ≤ n) ∨
    (computeSubpix .centroid n p c ix iy = .ok .nan ∧
      ∀ x y : Int, |x| ≤ n → |y| ≤ n → c.val (iy + y) (ix + x) = 0) := by
  have hv : ∀ q, 0 ≤ crop n c ix iy q := fun q => by
    rw [crop_at]; exact h _ _ (abs_index n q.2) (abs_index n q.1)
  have hoff : ∀ i : Fin (2 * n + 1), -(n : ℝ) ≤ offset n i ∧ offset n i ≤ n := by
    intro i
    have := abs_le.mp (abs_index n i)
    rw [offset_int]
    constructor
    · have := this.1; exact_mod_cast this
    · have := this.2; exact_mod_cast this
  have hS : 0 ≤ ∑ q, crop n c ix iy q := Finset.sum_nonneg (fun q _ => hv q)
  have hb : ∀ g : Fin (2 * n + 1) × Fin (2 * n + 1) → Fin (2 * n + 1),
      |∑ q, offset n (g q) * crop n c ix iy q| ≤ n * ∑ q, crop n c ix iy q := by
    intro g
    rw [abs_le, ← neg_mul, Finset.mul_sum, Finset.mul_sum]
    constructor
    · exact Finset.sum_le_sum (fun q _ => mul_le_mul_of_nonneg_right (hoff _).1 (hv q))
    · exact Finset.sum_le_sum (fun q _ => mul_le_mul_of_nonneg_right (hoff _).2 (hv q))
  unfold computeSubpix
  rw [if_neg (not_boundary hin)]
  dsimp only
  by_cases hz : ∑ q, crop n c ix iy q = 0
  · right
    have hall : ∀ q, crop n c ix iy q = 0 := fun q =>
      (Finset.sum_eq_zero_iff_of_nonneg (fun q _ => hv q)).mp hz q (Finset.mem_univ q)
    have hc : centroid n (crop n c ix iy) = .nan := by
      unfold centroid quot
      rw [if_pos hz, if_pos (.inl (by simp [hall]))]
    rw [hc]
    refine ⟨?_, fun x y hx hy => ?_⟩
    · unfold finish
      rw [if_neg (by unfold TooLarge; exact id)]
      rfl
    · rw [← crop_of_offset n c ix iy x y hx hy]; exact hall _
  · left
    have hpos : 0 < ∑ q, crop n c ix iy q := lt_of_le_of_ne hS (Ne.symm hz)
    have hq : ∀ g : Fin (2 * n + 1) × Fin (2 * n + 1) → Fin (2 * n + 1),
        |(∑ q, offset n (g q) * crop n c ix iy q) / ∑ q, crop n c ix iy q| ≤ n := by
      intro g
      rw [abs_div, abs_of_pos hpos, div_le_iff₀ hpos]
      exact hb g
    have hx := hq Prod.snd
    have hy := hq Prod.fst
    have hc : centroid n (crop n c ix iy) = .fin ((∑ q, offset n q.2 * crop n c ix iy q) / ∑ q, crop n c ix iy q)
        ((∑ q, offset n q.1 * crop n c ix iy q) / ∑ q, crop n c ix iy q) := by
      unfold centroid quot
      rw [if_neg hz]
    rw [hc]
    generalize (∑ q, offset n q.2 * crop n c ix iy q) / ∑ q, crop n c ix iy q = u at hx ⊢
    generalize (∑ q, offset n q.1 * crop n c ix iy q) / ∑ q, crop n c ix iy q = w at hy ⊢
    refine ⟨u + ix, w + iy, ?_, ?_, ?_⟩
    rotate_left
    · rw [add_sub_cancel_right]; exact hx
    · rw [add_sub_cancel_right]; exact hy
    · unfold finish
      rw [if_neg]
      · rfl
      · unfold TooLarge
        simp only [not_lt]
        have a1 := sq_le_sq' (abs_le.mp hx).1 (abs_le.mp hx).2
        have a2 := sq_le_sq' (abs_le.mp hy).1 (abs_le.mp hy).2
        have hn : (0 : ℝ) ≤ n := Nat.cast_nonneg n
        nlinarith

end Verif
