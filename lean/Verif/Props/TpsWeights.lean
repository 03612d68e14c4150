import Verif.Model.TpsWeights
import Verif.Lemmas.ThinPlate
import Mathlib.LinearAlgebra.Matrix.ToLinearEquiv
import Mathlib.Analysis.SpecialFunctions.Log.Deriv
import Mathlib.Tactic.LinearCombination

/-!
# C81: thin plate splines

What `compute_tps_weights`, `compute_field` and `compute_gradient` guarantee, for any number of centers, any positions, any values and
(except for the gradient) any space dimension.
-/

namespace Verif
open Matrix TpsWeights

/-! ## Specification -/

/-- Value at `p` of the thin plate spline of weights `w`: radial functions of the centers plus an affine function. -/
noncomputable def splineAt {N d : ℕ} (centers : Fin N → Fin d → ℝ) (w : Src N d → ℝ) (p : Fin d → ℝ) : ℝ :=
  ∑ c, w (.inl c) * ((∑ k, (p k - centers c k) ^ 2) * Real.log (∑ k, (p k - centers c k) ^ 2) / 2) +
    w (.inr (.inl ())) + ∑ k, w (.inr (.inr k)) * p k

/-- The centers are in no hyperplane (in two dimensions: three of them are not aligned). -/
def Spanning {N d : ℕ} (centers : Fin N → Fin d → ℝ) : Prop :=
  ∀ (a : ℝ) (b : Fin d → ℝ), (∀ c, a + ∑ k, b k * centers c k = 0) → a = 0 ∧ b = 0

/-- The affine part of the weights is not constrained; the radial weights have no sum and no first moments. -/
def Admissible {N d : ℕ} (centers : Fin N → Fin d → ℝ) (w : Src N d → ℝ) : Prop :=
  ∑ c, w (.inl c) = 0 ∧ ∀ k, ∑ c, w (.inl c) * centers c k = 0

/-- Squared difference from the initial data. -/
noncomputable def misfit {N d : ℕ} (centers : Fin N → Fin d → ℝ) (values : Fin N → ℝ) (w : Src N d → ℝ) : ℝ :=
  ∑ c, (splineAt centers w (centers c) - values c) ^ 2

/-- Squared curvature (up to a factor): quadratic form of the radial weights. -/
noncomputable def curvature {N d : ℕ} (centers : Fin N → Fin d → ℝ) (w : Src N d → ℝ) : ℝ :=
  ∑ c, ∑ c', w (.inl c) * w (.inl c') *
    ((∑ k, (centers c k - centers c' k) ^ 2) * Real.log (∑ k, (centers c k - centers c' k) ^ 2) / 2)

/-! ## Lemmas -/

namespace TpsWeights

theorem kernel_eq (s : ℝ) : kernel s = s * Real.log s / 2 := by
  unfold kernel
  split
  · rfl
  · rename_i h
    push Not at h
    rw [h]
    simp

theorem field_eq {M N d : ℕ} (newPos : Fin M → Fin d → ℝ) (centers : Fin N → Fin d → ℝ) (w : Src N d → ℝ) (m : Fin M) :
    computeField newPos centers w m = splineAt centers w (newPos m) := by
  unfold computeField splineAt vecMul dotProduct
  rw [Fintype.sum_sum_type, Fintype.sum_sum_type]
  simp only [tpsMatrix, kernel_eq, sqDist, Finset.univ_unique, Finset.sum_singleton, mul_one]
  rw [add_assoc]

theorem smoothed_eq {N d : ℕ} (centers : Fin N → Fin d → ℝ) (w : Src N d → ℝ) (c : Fin N) :
    ((tpsMatrix centers centers).transpose *ᵥ w) c = splineAt centers w (centers c) := by
  rw [← field_eq centers centers w c]
  unfold computeField
  rw [mulVec_transpose]

theorem system_top {N d : ℕ} (centers : Fin N → Fin d → ℝ) (coef : ℝ) (w : Src N d → ℝ) (c : Fin N) :
    (systemMat centers coef *ᵥ w) (.inl c) = splineAt centers w (centers c) + coef * w (.inl c) := by
  rw [← smoothed_eq]
  unfold mulVec dotProduct
  simp only [systemMat, add_mul, Finset.sum_add_distrib]
  congr 1
  rw [Fintype.sum_sum_type]
  simp [smoothingMat]

theorem system_sum {N d : ℕ} (centers : Fin N → Fin d → ℝ) (coef : ℝ) (w : Src N d → ℝ) (u : Unit) :
    (systemMat centers coef *ᵥ w) (.inr (.inl u)) = ∑ c, w (.inl c) := by
  unfold mulVec dotProduct
  rw [Fintype.sum_sum_type]
  simp [systemMat, momentRows]

theorem system_moment {N d : ℕ} (centers : Fin N → Fin d → ℝ) (coef : ℝ) (w : Src N d → ℝ) (k : Fin d) :
    (systemMat centers coef *ᵥ w) (.inr (.inr k)) = ∑ c, w (.inl c) * centers c k := by
  unfold mulVec dotProduct
  rw [Fintype.sum_sum_type]
  simp [systemMat, momentRows, mul_comm]

/-- The system of equations. -/
theorem system_iff {N d : ℕ} (centers : Fin N → Fin d → ℝ) (coef : ℝ) (values : Fin N → ℝ) (w : Src N d → ℝ) :
    systemMat centers coef *ᵥ w = paddedValues values ↔
      Admissible centers w ∧ ∀ c, splineAt centers w (centers c) + coef * w (.inl c) = values c := by
  constructor
  · intro h
    refine ⟨⟨?_, fun k => ?_⟩, fun c => ?_⟩
    · rw [← system_sum centers coef w (), h]; rfl
    · rw [← system_moment centers coef w k, h]; rfl
    · rw [← system_top centers coef w c, h]; rfl
  · rintro ⟨⟨h0, h1⟩, h⟩
    funext r
    rcases r with c | u | k
    · rw [system_top, h]; rfl
    · rw [system_sum, h0]; rfl
    · rw [system_moment, h1]; rfl

theorem curvature_eq {N d : ℕ} (centers : Fin N → Fin d → ℝ) (w : Src N d → ℝ) :
    curvature centers w = (1 / 2) * ThinPlate.quad centers (fun c => w (.inl c)) fun s => s * Real.log s := by
  rw [← ThinPlate.quad_smul]
  unfold curvature ThinPlate.quad ThinPlate.sq
  exact Finset.sum_congr rfl fun c _ => Finset.sum_congr rfl fun c' _ => by ring

theorem curvature_nonneg {N d : ℕ} {centers : Fin N → Fin d → ℝ} {w : Src N d → ℝ} (h : Admissible centers w) :
    0 ≤ curvature centers w := by
  rw [curvature_eq]
  have := ThinPlate.slogs_nonneg centers h.1 h.2
  linarith

/-- Bilinear form of the radial weights. -/
noncomputable def bilin {N d : ℕ} (centers : Fin N → Fin d → ℝ) (v w : Src N d → ℝ) : ℝ :=
  ∑ c, v (.inl c) * splineAt centers w (centers c)

/-- For admissible `v`, the affine part of `w` does not count. -/
theorem bilin_eq {N d : ℕ} {centers : Fin N → Fin d → ℝ} {v : Src N d → ℝ} (w : Src N d → ℝ) (h : Admissible centers v) :
    bilin centers v w = ∑ c, ∑ c', v (.inl c) * w (.inl c') *
      ((∑ k, (centers c k - centers c' k) ^ 2) * Real.log (∑ k, (centers c k - centers c' k) ^ 2) / 2) := by
  unfold bilin splineAt
  have e : ∀ c, v (.inl c) * (∑ c', w (.inl c') * ((∑ k, (centers c k - centers c' k) ^ 2) *
        Real.log (∑ k, (centers c k - centers c' k) ^ 2) / 2) + w (.inr (.inl ())) + ∑ k, w (.inr (.inr k)) * centers c k) =
      ∑ c', v (.inl c) * w (.inl c') * ((∑ k, (centers c k - centers c' k) ^ 2) *
        Real.log (∑ k, (centers c k - centers c' k) ^ 2) / 2) + v (.inl c) * w (.inr (.inl ())) +
        ∑ k, w (.inr (.inr k)) * (v (.inl c) * centers c k) := by
    intro c
    rw [mul_add, mul_add, Finset.mul_sum, Finset.mul_sum]
    congr 1
    · congr 1
      exact Finset.sum_congr rfl fun c' _ => by ring
    · exact Finset.sum_congr rfl fun k _ => by ring
  simp_rw [e]
  rw [Finset.sum_add_distrib, Finset.sum_add_distrib, ← Finset.sum_mul, h.1, Finset.sum_comm (f := fun c k => w (.inr (.inr k)) * _)]
  have : ∑ k, ∑ c, w (.inr (.inr k)) * (v (.inl c) * centers c k) = 0 :=
    Finset.sum_eq_zero fun k _ => by rw [← Finset.mul_sum, h.2, mul_zero]
  rw [this]
  ring

theorem bilin_self {N d : ℕ} {centers : Fin N → Fin d → ℝ} {v : Src N d → ℝ} (h : Admissible centers v) :
    bilin centers v v = curvature centers v := bilin_eq v h

theorem splineAt_add {N d : ℕ} (centers : Fin N → Fin d → ℝ) (v w : Src N d → ℝ) (p : Fin d → ℝ) :
    splineAt centers (v + w) p = splineAt centers v p + splineAt centers w p := by
  unfold splineAt
  simp only [Pi.add_apply, add_mul, Finset.sum_add_distrib]
  ring

theorem splineAt_smul {N d : ℕ} (centers : Fin N → Fin d → ℝ) (a : ℝ) (w : Src N d → ℝ) (p : Fin d → ℝ) :
    splineAt centers (a • w) p = a * splineAt centers w p := by
  unfold splineAt
  simp only [Pi.smul_apply, smul_eq_mul, mul_assoc, ← Finset.mul_sum]
  ring

theorem weights_spec {N d : ℕ} {centers : Fin N → Fin d → ℝ} {values : Fin N → ℝ} {coef : ℝ} {s : Fin N → ℝ} {w : Src N d → ℝ}
    (h : computeTpsWeights centers values coef = some (s, w)) :
    (systemMat centers coef).det ≠ 0 ∧ systemMat centers coef *ᵥ w = paddedValues values ∧
      ∀ c, s c = splineAt centers w (centers c) := by
  unfold computeTpsWeights at h
  split at h
  · cases h
  · rename_i hd
    simp only [Option.some.injEq, Prod.mk.injEq] at h
    obtain ⟨h1, h2⟩ := h
    refine ⟨hd, ?_, fun c => ?_⟩
    · rw [← h2, mulVec_mulVec, mul_nonsing_inv _ (isUnit_iff_ne_zero.mpr hd), one_mulVec]
    · rw [← h1, smoothed_eq, h2]

/-- The weights are the only solution. -/
theorem weights_unique {N d : ℕ} {centers : Fin N → Fin d → ℝ} {coef : ℝ} (hd : (systemMat centers coef).det ≠ 0)
    {v w : Src N d → ℝ} (h : systemMat centers coef *ᵥ v = systemMat centers coef *ᵥ w) : v = w := by
  have := congrArg ((systemMat centers coef)⁻¹ *ᵥ ·) h
  simpa [mulVec_mulVec, nonsing_inv_mul _ (isUnit_iff_ne_zero.mpr hd)] using this

theorem weights_some {N d : ℕ} {centers : Fin N → Fin d → ℝ} {coef : ℝ} (hd : (systemMat centers coef).det ≠ 0) (values : Fin N → ℝ)
    {w : Src N d → ℝ} (hw : Admissible centers w)
    (h : ∀ c, splineAt centers w (centers c) + coef * w (.inl c) = values c) :
    computeTpsWeights centers values coef = some (fun c => splineAt centers w (centers c), w) := by
  have h1 : ∃ r, computeTpsWeights centers values coef = some r := by
    unfold computeTpsWeights
    rw [if_neg hd]
    exact ⟨_, rfl⟩
  obtain ⟨⟨s, v⟩, hr⟩ := h1
  obtain ⟨_, h2, h3⟩ := weights_spec hr
  have e : v = w := weights_unique hd (h2.trans ((system_iff centers coef values w).mpr ⟨hw, h⟩).symm)
  rw [hr, ← e]
  congr 2
  funext c
  exact h3 c

end TpsWeights

/-! ## C81 -/

/-- **When the weights exist.**  For a smoothing coefficient that is not negative, `compute_tps_weights` succeeds, whatever the values,
if and only if the centers are in no hyperplane and they are distinct or the coefficient is positive. -/
theorem C81_solvable {N d : ℕ} (centers : Fin N → Fin d → ℝ) (values : Fin N → ℝ) {coef : ℝ} (hc : 0 ≤ coef) :
    (∃ r, computeTpsWeights centers values coef = some r) ↔
      Spanning centers ∧ (0 < coef ∨ ∀ c c', centers c = centers c' → c = c') := by
  have hdet : (∃ r, computeTpsWeights centers values coef = some r) ↔ (systemMat centers coef).det ≠ 0 := by
    unfold computeTpsWeights
    split <;> simp_all
  rw [hdet]
  constructor
  · intro hd
    constructor
    · intro a b h
      have : (Sum.elim (fun _ => 0) (Sum.elim (fun _ => a) b) : Src N d → ℝ) = 0 := by
        apply weights_unique hd
        rw [mulVec_zero]
        have := (system_iff centers coef (fun _ => 0) (Sum.elim (fun _ => 0) (Sum.elim (fun _ => a) b))).mpr
          ⟨⟨by simp, by simp⟩, fun c => by simpa [splineAt] using h c⟩
        rw [this]
        funext r
        rcases r with c | u | k <;> rfl
      exact ⟨congrFun this (.inr (.inl ())), funext fun k => congrFun this (.inr (.inr k))⟩
    · by_contra hn
      push Not at hn
      obtain ⟨h1, c, c', h2, h3⟩ := hn
      have h0 : coef = 0 := le_antisymm h1 hc
      apply hd
      refine det_zero_of_row_eq (i := .inl c) (j := .inl c') (by simpa using h3) ?_
      funext src
      simp only [systemMat, h0]
      have e : ∀ i, smoothingMat (N := N) (d := d) 0 i src = 0 := fun i => by unfold smoothingMat; split <;> simp
      rw [e, e]
      rcases src with j | u | k <;> simp [tpsMatrix, h2]
  · rintro ⟨hs, hor⟩ hd
    obtain ⟨v, hv, h0⟩ := exists_mulVec_eq_zero_iff.mpr hd
    apply hv
    have h0' : systemMat centers coef *ᵥ v = paddedValues (fun _ => 0) := by
      rw [h0]
      funext r
      rcases r with c | u | k <;> rfl
    obtain ⟨hadm, heq⟩ := (system_iff centers coef _ v).mp h0'
    have hsum : curvature centers v + coef * ∑ c, v (.inl c) ^ 2 = 0 := by
      rw [← bilin_self hadm]
      unfold bilin
      rw [Finset.mul_sum, ← Finset.sum_add_distrib]
      exact Finset.sum_eq_zero fun c _ => by linear_combination v (.inl c) * heq c
    have hk := curvature_nonneg hadm
    have hsq : 0 ≤ ∑ c, v (.inl c) ^ 2 := Finset.sum_nonneg fun _ _ => sq_nonneg _
    have hu : ∀ c, v (.inl c) = 0 := by
      rcases hor with hp | hi
      · have : ∑ c, v (.inl c) ^ 2 = 0 := by nlinarith
        rw [Finset.sum_eq_zero_iff_of_nonneg fun _ _ => sq_nonneg _] at this
        exact fun c => pow_eq_zero_iff two_ne_zero |>.mp (this c (Finset.mem_univ c))
      · have h2 : curvature centers v = 0 := by nlinarith [mul_nonneg hc hsq]
        rw [curvature_eq] at h2
        have := ThinPlate.slogs_pos centers (fun c c' h => hi c c' h) hadm.1 hadm.2 (by linarith)
        exact fun c => congrFun this c
    have hab := hs (v (.inr (.inl ()))) (fun k => v (.inr (.inr k))) fun c => by
      have := heq c
      unfold splineAt at this
      simpa [hu] using this
    funext r
    rcases r with c | u | k
    · exact hu c
    · exact hab.1
    · exact congrFun hab.2 k

/-- Three points that are not aligned. -/
def triangle : Fin 3 → Fin 2 → ℝ := ![![0, 0], ![1, 0], ![0, 1]]

theorem triangle_spanning : Spanning triangle := by
  intro a b h
  have h0 := h 0
  have h1 := h 1
  have h2 := h 2
  simp [triangle, Fin.sum_univ_two] at h0 h1 h2
  refine ⟨h0, ?_⟩
  funext k
  fin_cases k <;> simp <;> linarith

theorem triangle_solvable (values : Fin 3 → ℝ) : ∃ r, computeTpsWeights triangle values 0 = some r :=
  (C81_solvable triangle values le_rfl).mpr ⟨triangle_spanning, .inr fun c c' h => by
    have h0 := congrFun h 0
    have h1 := congrFun h 1
    fin_cases c <;> fin_cases c' <;> simp [triangle] at h0 h1 ⊢⟩

/-- Aligned centers are refused, whatever the smoothing. -/
example (coef : ℝ) (hc : 0 ≤ coef) (values : Fin 4 → ℝ) :
    computeTpsWeights (fun c : Fin 4 => ![(c : ℝ), (c : ℝ)]) values coef = none := by
  by_contra h
  obtain ⟨r, hr⟩ := Option.ne_none_iff_exists'.mp h
  have hs := ((C81_solvable _ values hc).mp ⟨r, hr⟩).1
  have := hs 0 ![1, -1] fun c => by simp [Fin.sum_univ_two]
  have := congrFun this.2 0
  simp at this

/-- **The smoothed values** are the values of the spline at the centers, and at other positions `compute_field` gives the values of the
same spline.  Its radial weights have no sum and no first moments, and its difference with the data is the coefficient times the
weight. -/
theorem C81_result {M N d : ℕ} {centers : Fin N → Fin d → ℝ} {values : Fin N → ℝ} {coef : ℝ} {s : Fin N → ℝ} {w : Src N d → ℝ}
    (h : computeTpsWeights centers values coef = some (s, w)) (newPos : Fin M → Fin d → ℝ) :
    (∀ c, s c = splineAt centers w (centers c)) ∧ (∀ m, computeField newPos centers w m = splineAt centers w (newPos m)) ∧
      Admissible centers w ∧ ∀ c, values c - s c = coef * w (.inl c) := by
  obtain ⟨_, h2, h3⟩ := weights_spec h
  obtain ⟨h4, h5⟩ := (system_iff centers coef values w).mp h2
  exact ⟨h3, fun m => field_eq newPos centers w m, h4, fun c => by rw [h3, ← h5 c]; ring⟩

/-- **Without smoothing the values are unchanged**, and the field passes through them. -/
theorem C81_interpolation {N d : ℕ} {centers : Fin N → Fin d → ℝ} {values : Fin N → ℝ} {s : Fin N → ℝ} {w : Src N d → ℝ}
    (h : computeTpsWeights centers values 0 = some (s, w)) : s = values ∧ computeField centers centers w = values := by
  obtain ⟨h1, h2, _, h4⟩ := C81_result h centers
  have : s = values := funext fun c => by have := h4 c; linarith
  exact ⟨this, funext fun c => by rw [h2, ← h1, this]⟩

/-- **An affine field is reproduced exactly**, at every position, for every smoothing coefficient. -/
theorem C81_affine {M N d : ℕ} {centers : Fin N → Fin d → ℝ} {values : Fin N → ℝ} {coef : ℝ} {s : Fin N → ℝ} {w : Src N d → ℝ}
    (h : computeTpsWeights centers values coef = some (s, w)) (a : ℝ) (b : Fin d → ℝ)
    (hv : ∀ c, values c = a + ∑ k, b k * centers c k) (newPos : Fin M → Fin d → ℝ) :
    s = values ∧ ∀ m, computeField newPos centers w m = a + ∑ k, b k * newPos m k := by
  obtain ⟨hd, _, _⟩ := weights_spec h
  have := weights_some hd values (w := Sum.elim (fun _ => 0) (Sum.elim (fun _ => a) b)) ⟨by simp, by simp⟩
    fun c => by rw [hv]; simp [splineAt]
  rw [h] at this
  simp only [Option.some.injEq, Prod.mk.injEq] at this
  obtain ⟨h1, h2⟩ := this
  subst h2
  constructor
  · rw [h1]
    funext c
    rw [hv]
    simp [splineAt]
  · intro m
    rw [field_eq]
    simp [splineAt]

/-- **The smoothing keeps the mean and the first moments** of the values. -/
theorem C81_moments {N d : ℕ} {centers : Fin N → Fin d → ℝ} {values : Fin N → ℝ} {coef : ℝ} {s : Fin N → ℝ} {w : Src N d → ℝ}
    (h : computeTpsWeights centers values coef = some (s, w)) :
    ∑ c, s c = ∑ c, values c ∧ ∀ k, ∑ c, s c * centers c k = ∑ c, values c * centers c k := by
  obtain ⟨_, _, h3, h4⟩ := C81_result h centers
  have e : ∀ c, s c = values c - coef * w (.inl c) := fun c => by rw [← h4]; ring
  constructor
  · simp_rw [e]
    rw [Finset.sum_sub_distrib, ← Finset.mul_sum, h3.1]
    ring
  · intro k
    simp_rw [e, sub_mul, mul_assoc]
    rw [Finset.sum_sub_distrib, ← Finset.mul_sum, h3.2]
    ring

/-- **The result is linear in the values.** -/
theorem C81_linear {N d : ℕ} {centers : Fin N → Fin d → ℝ} {v1 v2 : Fin N → ℝ} {coef : ℝ} {s1 s2 : Fin N → ℝ} {w1 w2 : Src N d → ℝ}
    (h1 : computeTpsWeights centers v1 coef = some (s1, w1)) (h2 : computeTpsWeights centers v2 coef = some (s2, w2)) (a b : ℝ) :
    computeTpsWeights centers (a • v1 + b • v2) coef = some (a • s1 + b • s2, a • w1 + b • w2) := by
  obtain ⟨hd, h3, h4⟩ := weights_spec h1
  obtain ⟨_, h5, h6⟩ := weights_spec h2
  obtain ⟨ha1, he1⟩ := (system_iff ..).mp h3
  obtain ⟨ha2, he2⟩ := (system_iff ..).mp h5
  rw [weights_some hd (a • v1 + b • v2) (w := a • w1 + b • w2)]
  · congr 2
    funext c
    rw [splineAt_add, splineAt_smul, splineAt_smul, Pi.add_apply, Pi.smul_apply, Pi.smul_apply, h4, h6]
    rfl
  · constructor
    · simp [Finset.sum_add_distrib, ← Finset.mul_sum, ha1.1, ha2.1]
    · intro k
      simp [add_mul, mul_assoc, Finset.sum_add_distrib, ← Finset.mul_sum, ha1.2, ha2.2]
  · intro c
    rw [splineAt_add, splineAt_smul, splineAt_smul]
    simp only [Pi.add_apply, Pi.smul_apply, smul_eq_mul]
    rw [← he1 c, ← he2 c]
    ring

/-- Sum of the squares of the differences when the weights are changed. -/
theorem TpsWeights.objective_diff {N d : ℕ} {centers : Fin N → Fin d → ℝ} {values : Fin N → ℝ} {coef : ℝ} {s : Fin N → ℝ} {w : Src N d → ℝ}
    (h : computeTpsWeights centers values coef = some (s, w)) (v : Src N d → ℝ) (hv : Admissible centers v) :
    misfit centers values v + coef * curvature centers v =
      misfit centers values w + coef * curvature centers w + ∑ c, splineAt centers (v - w) (centers c) ^ 2 +
        coef * curvature centers (v - w) := by
  obtain ⟨hs, _, hw, hr⟩ := C81_result h centers
  have hvw : Admissible centers (v - w) := by
    constructor
    · simp [Finset.sum_sub_distrib, hv.1, hw.1]
    · intro k
      simp [sub_mul, Finset.sum_sub_distrib, hv.2, hw.2]
  have esub : ∀ p, splineAt centers (v - w) p = splineAt centers v p - splineAt centers w p := by
    intro p
    have := splineAt_add centers (v - w) w p
    rw [sub_add_cancel] at this
    linarith
  -- cross terms
  have hsym : bilin centers v w = bilin centers w v := by
    rw [bilin_eq w hv, bilin_eq v hw, Finset.sum_comm]
    refine Finset.sum_congr rfl fun c _ => Finset.sum_congr rfl fun c' _ => ?_
    have : ∑ k, (centers c' k - centers c k) ^ 2 = ∑ k, (centers c k - centers c' k) ^ 2 :=
      Finset.sum_congr rfl fun k _ => by ring
    rw [this]
    ring
  have hcross : curvature centers (v - w) = curvature centers v - 2 * bilin centers w v + curvature centers w := by
    rw [← bilin_self hvw, ← bilin_self hv, ← bilin_self hw]
    have : bilin centers (v - w) (v - w) = bilin centers v v - bilin centers v w - bilin centers w v + bilin centers w w := by
      unfold bilin
      rw [← Finset.sum_sub_distrib, ← Finset.sum_sub_distrib, ← Finset.sum_add_distrib]
      refine Finset.sum_congr rfl fun c _ => ?_
      rw [esub]
      simp only [Pi.sub_apply]
      ring
    rw [this, hsym]
    ring
  have hmis : misfit centers values v = misfit centers values w + ∑ c, splineAt centers (v - w) (centers c) ^ 2 -
      2 * coef * (bilin centers w v - curvature centers w) := by
    rw [← bilin_self hw]
    unfold misfit bilin
    rw [← Finset.sum_sub_distrib, Finset.mul_sum, ← Finset.sum_add_distrib, ← Finset.sum_sub_distrib]
    refine Finset.sum_congr rfl fun c _ => ?_
    rw [esub]
    have h1 := hr c
    have h2 := hs c
    linear_combination (-2 * (splineAt centers v (centers c) - splineAt centers w (centers c))) * (h1 + h2)
  rw [hmis, hcross]
  ring

/-- **The result minimises** the sum of the squared difference from the data and of `coef` times the squared curvature, among all the
thin plate splines with these centers. -/
theorem C81_minimises {N d : ℕ} {centers : Fin N → Fin d → ℝ} {values : Fin N → ℝ} {coef : ℝ} (hc : 0 ≤ coef) {s : Fin N → ℝ}
    {w : Src N d → ℝ} (h : computeTpsWeights centers values coef = some (s, w)) (v : Src N d → ℝ) (hv : Admissible centers v) :
    misfit centers values w + coef * curvature centers w ≤ misfit centers values v + coef * curvature centers v := by
  have hw := (C81_result h centers).2.2.1
  have hvw : Admissible centers (v - w) := by
    constructor
    · simp [Finset.sum_sub_distrib, hv.1, hw.1]
    · intro k
      simp [sub_mul, Finset.sum_sub_distrib, hv.2, hw.2]
  rw [objective_diff h v hv]
  have := mul_nonneg hc (curvature_nonneg hvw)
  have : 0 ≤ ∑ c, splineAt centers (v - w) (centers c) ^ 2 := Finset.sum_nonneg fun _ _ => sq_nonneg _
  linarith

/-- **A larger coefficient gives a smoother field**, that is farther from the data. -/
theorem C81_smoother {N d : ℕ} {centers : Fin N → Fin d → ℝ} {values : Fin N → ℝ} {c1 c2 : ℝ} (h0 : 0 ≤ c1) (h12 : c1 < c2)
    {s1 s2 : Fin N → ℝ} {w1 w2 : Src N d → ℝ} (h1 : computeTpsWeights centers values c1 = some (s1, w1))
    (h2 : computeTpsWeights centers values c2 = some (s2, w2)) :
    curvature centers w2 ≤ curvature centers w1 ∧ ∑ c, (s1 c - values c) ^ 2 ≤ ∑ c, (s2 c - values c) ^ 2 := by
  obtain ⟨e1, _, a1, _⟩ := C81_result h1 centers
  obtain ⟨e2, _, a2, _⟩ := C81_result h2 centers
  have m1 := C81_minimises h0 h1 w2 a2
  have m2 := C81_minimises (h0.trans h12.le) h2 w1 a1
  have k : curvature centers w2 ≤ curvature centers w1 := by nlinarith
  have x1 : ∑ c, (s1 c - values c) ^ 2 = misfit centers values w1 :=
    Finset.sum_congr rfl fun c _ => by rw [e1]
  have x2 : ∑ c, (s2 c - values c) ^ 2 = misfit centers values w2 :=
    Finset.sum_congr rfl fun c _ => by rw [e2]
  rw [x1, x2]
  refine ⟨k, ?_⟩
  nlinarith

/-- **Translation**: moving the centers and the new positions together changes neither the smoothed values nor the field. -/
theorem C81_translation {M N d : ℕ} {centers : Fin N → Fin d → ℝ} {values : Fin N → ℝ} {coef : ℝ} (hc : 0 ≤ coef) (t : Fin d → ℝ)
    {s : Fin N → ℝ} {w : Src N d → ℝ} (h : computeTpsWeights centers values coef = some (s, w)) (newPos : Fin M → Fin d → ℝ) :
    ∃ w', computeTpsWeights (fun c k => centers c k + t k) values coef = some (s, w') ∧
      computeField (fun m k => newPos m k + t k) (fun c k => centers c k + t k) w' = computeField newPos centers w := by
  obtain ⟨e1, e2, a1, e4⟩ := C81_result h newPos
  obtain ⟨hs, hor⟩ := (C81_solvable centers values hc).mp ⟨_, h⟩
  have hs' : Spanning (fun c k => centers c k + t k) := by
    intro a b hb
    have := hs (a + ∑ k, b k * t k) b fun c => by
      have := hb c
      simp only [mul_add, Finset.sum_add_distrib] at this
      linarith
    obtain ⟨h1, h2⟩ := this
    subst h2
    simpa using h1
  obtain ⟨r, hr⟩ := (C81_solvable (fun c k => centers c k + t k) values hc).mpr
    ⟨hs', hor.imp id fun hi c c' he => hi c c' (funext fun k => by have := congrFun he k; linarith)⟩
  have hd := (weights_spec (s := r.1) (w := r.2) hr).1
  let w' : Src N d → ℝ := Sum.elim (fun c => w (.inl c))
    (Sum.elim (fun _ => w (.inr (.inl ())) - ∑ k, w (.inr (.inr k)) * t k) fun k => w (.inr (.inr k)))
  have ew : ∀ p : Fin d → ℝ, splineAt (fun c k => centers c k + t k) w' (fun k => p k + t k) = splineAt centers w p := by
    intro p
    unfold splineAt
    simp only [w', Sum.elim_inl, Sum.elim_inr, add_sub_add_right_eq_sub, mul_add, Finset.sum_add_distrib]
    ring
  refine ⟨w', ?_, ?_⟩
  · rw [weights_some hd values (w := w')]
    · congr 2
      funext c
      rw [e1]
      exact ew _
    · refine ⟨a1.1, fun k => ?_⟩
      simp only [w', Sum.elim_inl, mul_add, Finset.sum_add_distrib, ← Finset.sum_mul, a1.1, a1.2]
      ring
    · intro c
      rw [ew]
      have := e4 c
      rw [e1] at this
      simp only [w', Sum.elim_inl]
      linarith
  · funext m
    rw [field_eq, field_eq]
    exact ew _

/-! ## Gradient -/

namespace TpsWeights

theorem radial_deriv_zero (c : ℝ) : HasDerivAt (fun t : ℝ => (t - c) ^ 2 * Real.log ((t - c) ^ 2) / 2) 0 c := by
  have h0 : HasDerivAt (fun u : ℝ => u ^ 2 * Real.log (u ^ 2) / 2) 0 0 := by
    rw [hasDerivAt_iff_tendsto_slope]
    have hg : Filter.Tendsto (fun u : ℝ => u * Real.log u) (nhdsWithin 0 {0}ᶜ) (nhds 0) := by
      have := (Real.continuous_mul_log.tendsto 0).mono_left (nhdsWithin_le_nhds (s := {0}ᶜ))
      simpa using this
    refine hg.congr' ?_
    filter_upwards [self_mem_nhdsWithin] with u hu
    have hu : u ≠ 0 := hu
    unfold slope
    simp only [sub_zero, vsub_eq_sub, smul_eq_mul, Real.log_pow]
    field_simp
    simp
    ring
  have hs : HasDerivAt (fun t : ℝ => t - c) 1 c := (hasDerivAt_id c).sub_const c
  have h0' : HasDerivAt (fun u : ℝ => u ^ 2 * Real.log (u ^ 2) / 2) 0 (c - c) := by rwa [sub_self]
  have := HasDerivAt.comp (h := fun t : ℝ => t - c) c h0' hs
  rw [zero_mul] at this
  exact this

theorem radial_deriv (c b t : ℝ) :
    HasDerivAt (fun t : ℝ => ((t - c) ^ 2 + b ^ 2) * Real.log ((t - c) ^ 2 + b ^ 2) / 2)
      ((t - c) * logPlusOne ((t - c) * (t - c) + b * b)) t := by
  have e : (t - c) * (t - c) + b * b = (t - c) ^ 2 + b ^ 2 := by ring
  rw [e]
  by_cases hz : (t - c) ^ 2 + b ^ 2 = 0
  · have hb : b = 0 := by nlinarith [sq_nonneg (t - c), sq_nonneg b]
    have ht : t = c := by
      have : t - c = 0 := by nlinarith [sq_nonneg (t - c), sq_nonneg b]
      linarith
    subst hb
    subst ht
    simpa using radial_deriv_zero t
  · unfold logPlusOne
    rw [if_pos hz]
    have h1 : HasDerivAt (fun t : ℝ => (t - c) ^ 2 + b ^ 2) (2 * (t - c)) t := by
      have := (((hasDerivAt_id t).sub_const c).pow 2).add_const (b ^ 2)
      simpa using this
    have h2 := (h1.mul (h1.log hz)).div_const 2
    refine h2.congr_deriv ?_
    field_simp

end TpsWeights

/-- **The gradient**: what `compute_gradient` gives differs from the derivatives of the field along `x` (coordinate of index 1) and `y`
(coordinate of index 0) by the difference of the two slopes of the affine part.  Hence `_partial`: it is the gradient exactly when these
slopes are equal. -/
theorem C81_gradient_partial {M N : ℕ} (centers : Fin N → Fin 2 → ℝ) (w : Src N 2 → ℝ) (newPos : Fin M → Fin 2 → ℝ) (m : Fin M) :
    HasDerivAt (fun x => splineAt centers w ![newPos m 0, x])
        ((computeGradient newPos centers w).1 m + (w (.inr (.inr 1)) - w (.inr (.inr 0)))) (newPos m 1) ∧
      HasDerivAt (fun y => splineAt centers w ![y, newPos m 1])
        ((computeGradient newPos centers w).2 m + (w (.inr (.inr 0)) - w (.inr (.inr 1)))) (newPos m 0) := by
  constructor
  · have e : (computeGradient newPos centers w).1 m + (w (.inr (.inr 1)) - w (.inr (.inr 0))) =
        ∑ c, w (.inl c) * ((newPos m 1 - centers c 1) * logPlusOne ((newPos m 1 - centers c 1) * (newPos m 1 - centers c 1) +
          (newPos m 0 - centers c 0) * (newPos m 0 - centers c 0))) + w (.inr (.inr 1)) := by
      simp only [computeGradient, vecMul, dotProduct]
      rw [Fintype.sum_sum_type, Fintype.sum_sum_type]
      simp only [matrixDx, Fin.sum_univ_two]
      simp
    rw [e]
    unfold splineAt
    simp only [Fin.sum_univ_two, Matrix.cons_val_zero, Matrix.cons_val_one]
    refine HasDerivAt.add ((HasDerivAt.fun_sum fun c _ => ?_).add_const _) ?_
    · have := (radial_deriv (centers c 1) (newPos m 0 - centers c 0) (newPos m 1)).const_mul (w (.inl c))
      simp only [add_comm (_ ^ 2) ((newPos m 0 - centers c 0) ^ 2)] at this
      exact this
    · simpa using ((hasDerivAt_id (newPos m 1)).const_mul (w (.inr (.inr 1)))).const_add (w (.inr (.inr 0)) * newPos m 0)
  · have e : (computeGradient newPos centers w).2 m + (w (.inr (.inr 0)) - w (.inr (.inr 1))) =
        ∑ c, w (.inl c) * ((newPos m 0 - centers c 0) * logPlusOne ((newPos m 1 - centers c 1) * (newPos m 1 - centers c 1) +
          (newPos m 0 - centers c 0) * (newPos m 0 - centers c 0))) + w (.inr (.inr 0)) := by
      simp only [computeGradient, vecMul, dotProduct]
      rw [Fintype.sum_sum_type, Fintype.sum_sum_type]
      simp only [matrixDy, Fin.sum_univ_two]
      simp
    rw [e]
    unfold splineAt
    simp only [Fin.sum_univ_two, Matrix.cons_val_zero, Matrix.cons_val_one]
    refine HasDerivAt.add ((HasDerivAt.fun_sum fun c _ => ?_).add_const _) ?_
    · have := (radial_deriv (centers c 0) (newPos m 1 - centers c 1) (newPos m 0)).const_mul (w (.inl c))
      rw [add_comm ((newPos m 0 - centers c 0) * _)] at this
      exact this
    · simpa using ((hasDerivAt_id (newPos m 0)).const_mul (w (.inr (.inr 0)))).add_const (w (.inr (.inr 1)) * newPos m 1)

/-- **The gradient of an affine field is wrong**: for a field `a + by * y + bx * x` the two components of the gradient are exchanged, at
every position, for every set of centers. -/
theorem C81_gradient_fails {M N : ℕ} {centers : Fin N → Fin 2 → ℝ} {values : Fin N → ℝ} {coef : ℝ} {s : Fin N → ℝ} {w : Src N 2 → ℝ}
    (h : computeTpsWeights centers values coef = some (s, w)) (a bx by' : ℝ)
    (hv : ∀ c, values c = a + by' * centers c 0 + bx * centers c 1) (newPos : Fin M → Fin 2 → ℝ) (m : Fin M) :
    computeField newPos centers w m = a + by' * newPos m 0 + bx * newPos m 1 ∧
      (computeGradient newPos centers w).1 m = by' ∧ (computeGradient newPos centers w).2 m = bx := by
  have hv' : ∀ c, values c = a + ∑ k, ![by', bx] k * centers c k := fun c => by
    rw [hv]
    simp [Fin.sum_univ_two]
    ring
  obtain ⟨hd, _, _⟩ := weights_spec h
  have hw : w = Sum.elim (fun _ => 0) (Sum.elim (fun _ => a) ![by', bx]) := by
    have := weights_some hd values (w := Sum.elim (fun _ => 0) (Sum.elim (fun _ => a) ![by', bx])) ⟨by simp, by simp⟩
      fun c => by rw [hv']; simp [splineAt]
    rw [h] at this
    simp only [Option.some.injEq, Prod.mk.injEq] at this
    exact this.2
  refine ⟨?_, ?_, ?_⟩
  · rw [(C81_affine h a ![by', bx] hv' newPos).2 m]
    simp [Fin.sum_univ_two]
    ring
  · subst hw
    simp only [computeGradient, vecMul, dotProduct]
    rw [Fintype.sum_sum_type, Fintype.sum_sum_type]
    simp [matrixDx, Fin.sum_univ_two]
  · subst hw
    simp only [computeGradient, vecMul, dotProduct]
    rw [Fintype.sum_sum_type, Fintype.sum_sum_type]
    simp [matrixDy, Fin.sum_univ_two]

/-- The field `x` on three centers: the gradient given is `(0, 1)`. -/
example : ∃ s w, computeTpsWeights triangle (fun c => triangle c 1) 0 = some (s, w) ∧
    (computeGradient (fun _ : Fin 1 => ![5, 7]) triangle w).1 0 = 0 ∧
    (computeGradient (fun _ : Fin 1 => ![5, 7]) triangle w).2 0 = 1 := by
  obtain ⟨⟨s, w⟩, h⟩ := triangle_solvable fun c => triangle c 1
  have := C81_gradient_fails h 0 1 0 (fun c => by simp) (fun _ : Fin 1 => ![5, 7]) 0
  exact ⟨s, w, h, this.2⟩

/-- The hypotheses of the theorems above are met with a positive coefficient and values that are not affine. -/
example (values : Fin 5 → ℝ) : ∃ r, computeTpsWeights ![![0, 0], ![1, 0], ![0, 1], ![1, 1], ![1, 1]] values 2 = some r := by
  refine (C81_solvable _ values (by norm_num)).mpr ⟨?_, .inl (by norm_num)⟩
  intro a b h
  have h0 := h 0
  have h1 := h 1
  have h2 := h 2
  simp [Fin.sum_univ_two] at h0 h1 h2
  refine ⟨h0, ?_⟩
  funext k
  fin_cases k <;> simp <;> linarith

end Verif
