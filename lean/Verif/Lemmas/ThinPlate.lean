import Mathlib.Analysis.SpecialFunctions.ImproperIntegrals
import Mathlib.Analysis.SpecialFunctions.Log.NegMulLog
import Mathlib.Analysis.SpecialFunctions.Exponential
import Mathlib.Algebra.BigOperators.Ring.Finset
import Mathlib.Analysis.Calculus.MeanValue
import Mathlib.Tactic.FieldSimp
import Mathlib.Tactic.Positivity

/-!
# The function `s log s` of the squared distance is conditionally positive definite

For points `x i` and weights `w i` with `∑ w i = 0` and `∑ w i x i = 0`, the sum of `w i w j s log s`, with `s` the squared distance
of `x i` and `x j`, is nonnegative, and positive if the points are distinct and the weights not all zero.  (Duchon, Micchelli.)
-/

namespace Verif.ThinPlate
open Finset Filter Topology

variable {ι : Type*} [Fintype ι] {d : ℕ}

/-- Squared distance. -/
def sq (x : ι → Fin d → ℝ) (i j : ι) : ℝ := ∑ k, (x i k - x j k) ^ 2

theorem sq_nonneg' (x : ι → Fin d → ℝ) (i j : ι) : 0 ≤ sq x i j := Finset.sum_nonneg fun _ _ => sq_nonneg _

theorem sq_self (x : ι → Fin d → ℝ) (i : ι) : sq x i i = 0 := by simp [sq]

/-- Quadratic form of a function of the squared distance. -/
def quad (x : ι → Fin d → ℝ) (w : ι → ℝ) (f : ℝ → ℝ) : ℝ := ∑ i, ∑ j, w i * w j * f (sq x i j)

theorem pow_form_nonneg (x : ι → Fin d → ℝ) (u : ι → ℝ) (m : ℕ) :
    0 ≤ ∑ i, ∑ j, u i * u j * (∑ k, x i k * x j k) ^ m := by
  have h : ∀ i j, (∑ k, x i k * x j k) ^ m = ∑ p : Fin m → Fin d, (∏ l, x i (p l)) * ∏ l, x j (p l) := by
    intro i j
    rw [Fintype.sum_pow]
    exact Finset.sum_congr rfl fun p _ => Finset.prod_mul_distrib
  have e : ∑ i, ∑ j, u i * u j * (∑ k, x i k * x j k) ^ m =
      ∑ p : Fin m → Fin d, (∑ i, u i * ∏ l, x i (p l)) ^ 2 := by
    have e2 : ∀ p : Fin m → Fin d, (∑ i, u i * ∏ l, x i (p l)) ^ 2 =
        ∑ i, ∑ j, (u i * ∏ l, x i (p l)) * (u j * ∏ l, x j (p l)) := fun p => by rw [pow_two, Finset.sum_mul_sum]
    symm
    simp_rw [e2]
    rw [Finset.sum_comm]
    refine Finset.sum_congr rfl fun i _ => ?_
    rw [Finset.sum_comm]
    refine Finset.sum_congr rfl fun j _ => ?_
    rw [h, Finset.mul_sum]
    exact Finset.sum_congr rfl fun p _ => by ring
  rw [e]
  exact Finset.sum_nonneg fun p _ => sq_nonneg _

theorem gauss_nonneg (x : ι → Fin d → ℝ) (w : ι → ℝ) {t : ℝ} (ht : 0 ≤ t) : 0 ≤ quad x w fun s => Real.exp (-t * s) := by
  have h1 : ∀ i j, w i * w j * Real.exp (-t * sq x i j) = (w i * Real.exp (-t * ∑ k, x i k ^ 2)) * (w j * Real.exp (-t * ∑ k, x j k ^ 2)) *
      Real.exp (2 * t * ∑ k, x i k * x j k) := by
    intro i j
    have : -t * sq x i j = -t * ∑ k, x i k ^ 2 + -t * ∑ k, x j k ^ 2 + 2 * t * ∑ k, x i k * x j k := by
      unfold sq
      rw [Finset.mul_sum, Finset.mul_sum, Finset.mul_sum, Finset.mul_sum, ← Finset.sum_add_distrib, ← Finset.sum_add_distrib]
      exact Finset.sum_congr rfl fun k _ => by ring
    rw [this, Real.exp_add, Real.exp_add]
    ring
  unfold quad
  simp_rw [h1]
  set u : ι → ℝ := fun i => w i * Real.exp (-t * ∑ k, x i k ^ 2)
  have hs : HasSum (fun n : ℕ => ∑ i, ∑ j, u i * u j * ((2 * t * ∑ k, x i k * x j k) ^ n / (n.factorial : ℝ)))
      (∑ i, ∑ j, u i * u j * Real.exp (2 * t * ∑ k, x i k * x j k)) := by
    refine hasSum_sum fun i _ => hasSum_sum fun j _ => ?_
    have := NormedSpace.expSeries_div_hasSum_exp (2 * t * ∑ k, x i k * x j k)
    rw [← Real.exp_eq_exp_ℝ] at this
    exact this.mul_left _
  refine hs.nonneg fun n => ?_
  have e : ∑ i, ∑ j, u i * u j * ((2 * t * ∑ k, x i k * x j k) ^ n / (n.factorial : ℝ)) =
      ((2 * t) ^ n / (n.factorial : ℝ)) * ∑ i, ∑ j, u i * u j * (∑ k, x i k * x j k) ^ n := by
    rw [Finset.mul_sum]
    refine Finset.sum_congr rfl fun i _ => ?_
    rw [Finset.mul_sum]
    refine Finset.sum_congr rfl fun j _ => ?_
    rw [mul_pow]
    ring
  rw [e]
  have := pow_form_nonneg x u n
  positivity

/-- The kernel `1 / (s + l)`. -/
theorem inv_nonneg' (x : ι → Fin d → ℝ) (w : ι → ℝ) {l : ℝ} (hl : 0 < l) : 0 ≤ quad x w fun s => 1 / (s + l) := by
  have h1 : ∀ i j, ∫ t in Set.Ioi (0 : ℝ), w i * w j * Real.exp (-(sq x i j + l) * t) = w i * w j * (1 / (sq x i j + l)) := by
    intro i j
    have hp : 0 < sq x i j + l := by have := sq_nonneg' x i j; linarith
    rw [MeasureTheory.integral_const_mul, integral_exp_mul_Ioi (by linarith)]
    congr 1
    rw [mul_zero, Real.exp_zero, neg_div_neg_eq]
  have hint : ∀ i j, MeasureTheory.IntegrableOn (fun t => w i * w j * Real.exp (-(sq x i j + l) * t)) (Set.Ioi 0) := by
    intro i j
    have hp : 0 < sq x i j + l := by have := sq_nonneg' x i j; linarith
    exact (integrableOn_exp_mul_Ioi (by linarith) 0).const_mul _
  have h2 : quad x w (fun s => 1 / (s + l)) =
      ∫ t in Set.Ioi (0 : ℝ), ∑ i, ∑ j, w i * w j * Real.exp (-(sq x i j + l) * t) := by
    rw [MeasureTheory.integral_finset_sum _ fun i _ => MeasureTheory.integrable_finset_sum _ fun j _ => hint i j]
    unfold quad
    refine Finset.sum_congr rfl fun i _ => ?_
    rw [MeasureTheory.integral_finset_sum _ fun j _ => hint i j]
    exact Finset.sum_congr rfl fun j _ => (h1 i j).symm
  rw [h2]
  refine MeasureTheory.setIntegral_nonneg measurableSet_Ioi fun t ht => ?_
  have ht : 0 ≤ t := le_of_lt ht
  have e : ∑ i, ∑ j, w i * w j * Real.exp (-(sq x i j + l) * t) = Real.exp (-l * t) * quad x w fun s => Real.exp (-t * s) := by
    unfold quad
    rw [Finset.mul_sum]
    refine Finset.sum_congr rfl fun i _ => ?_
    rw [Finset.mul_sum]
    refine Finset.sum_congr rfl fun j _ => ?_
    have : -(sq x i j + l) * t = -l * t + -t * sq x i j := by ring
    rw [this, Real.exp_add]
    ring
  rw [e]
  exact mul_nonneg (Real.exp_nonneg _) (gauss_nonneg x w ht)

theorem quad_const (x : ι → Fin d → ℝ) {w : ι → ℝ} (h0 : ∑ i, w i = 0) (c : ℝ) : quad x w (fun _ => c) = 0 := by
  unfold quad
  refine Finset.sum_eq_zero fun i _ => ?_
  rw [← Finset.sum_mul, ← Finset.mul_sum, h0]
  ring

theorem quad_id (x : ι → Fin d → ℝ) {w : ι → ℝ} (h0 : ∑ i, w i = 0) (h1 : ∀ k, ∑ i, w i * x i k = 0) :
    quad x w (fun s => s) = 0 := by
  unfold quad sq
  have e : ∀ i j, w i * w j * ∑ k, (x i k - x j k) ^ 2 =
      ∑ k, ((w i * x i k ^ 2) * w j + w i * (w j * x j k ^ 2) - 2 * (w i * x i k) * (w j * x j k)) := by
    intro i j
    rw [Finset.mul_sum]
    exact Finset.sum_congr rfl fun k _ => by ring
  simp_rw [e]
  have e2 : ∀ i, ∑ j, ∑ k, ((w i * x i k ^ 2) * w j + w i * (w j * x j k ^ 2) - 2 * (w i * x i k) * (w j * x j k)) =
      ∑ k, w i * ∑ j, w j * x j k ^ 2 := by
    intro i
    rw [Finset.sum_comm]
    refine Finset.sum_congr rfl fun k _ => ?_
    rw [Finset.sum_sub_distrib, Finset.sum_add_distrib, ← Finset.mul_sum, ← Finset.mul_sum, ← Finset.mul_sum, h0, h1]
    ring
  simp_rw [e2]
  rw [Finset.sum_comm]
  refine Finset.sum_eq_zero fun k _ => ?_
  rw [← Finset.sum_mul, h0, zero_mul]

theorem quad_add (x : ι → Fin d → ℝ) (w : ι → ℝ) (f g : ℝ → ℝ) : quad x w (fun s => f s + g s) = quad x w f + quad x w g := by
  unfold quad
  rw [← Finset.sum_add_distrib]
  refine Finset.sum_congr rfl fun i _ => ?_
  rw [← Finset.sum_add_distrib]
  exact Finset.sum_congr rfl fun j _ => by ring

theorem quad_smul (x : ι → Fin d → ℝ) (w : ι → ℝ) (c : ℝ) (f : ℝ → ℝ) : quad x w (fun s => c * f s) = c * quad x w f := by
  unfold quad
  rw [Finset.mul_sum]
  refine Finset.sum_congr rfl fun i _ => ?_
  rw [Finset.mul_sum]
  exact Finset.sum_congr rfl fun j _ => by ring

theorem quad_congr (x : ι → Fin d → ℝ) (w : ι → ℝ) {f g : ℝ → ℝ} (h : ∀ s, 0 ≤ s → f s = g s) : quad x w f = quad x w g := by
  unfold quad
  exact Finset.sum_congr rfl fun i _ => Finset.sum_congr rfl fun j _ => by rw [h _ (sq_nonneg' x i j)]

/-- The function whose derivative is minus `l` times the form of `1 / (s + l)`. -/
noncomputable def shift (x : ι → Fin d → ℝ) (w : ι → ℝ) (l : ℝ) : ℝ := quad x w fun s => s * Real.log (s + l)

theorem shift_deriv (x : ι → Fin d → ℝ) {w : ι → ℝ} (h0 : ∑ i, w i = 0) {l : ℝ} (hl : 0 < l) :
    HasDerivAt (shift x w) (-(l * quad x w fun s => 1 / (s + l))) l := by
  have h : HasDerivAt (shift x w) (quad x w fun s => s * (1 / (s + l))) l := by
    unfold shift quad
    refine HasDerivAt.fun_sum fun i _ => HasDerivAt.fun_sum fun j _ => ?_
    have hp : sq x i j + l ≠ 0 := by have := sq_nonneg' x i j; linarith
    exact ((((hasDerivAt_id l).const_add _).log hp).const_mul _).const_mul _
  have e : quad x w (fun s => s * (1 / (s + l))) = -(l * quad x w fun s => 1 / (s + l)) := by
    have : quad x w (fun s => s * (1 / (s + l))) = quad x w (fun s => 1 + -l * (1 / (s + l))) := by
      refine quad_congr x w fun s hs => ?_
      have : s + l ≠ 0 := by linarith
      field_simp
      ring
    rw [this, quad_add, quad_const x h0, quad_smul]
    ring
  rw [← e]
  exact h

theorem shift_continuousOn (x : ι → Fin d → ℝ) (w : ι → ℝ) : ContinuousOn (shift x w) (Set.Ici 0) := by
  unfold shift quad
  refine continuousOn_finset_sum _ fun i _ => continuousOn_finset_sum _ fun j _ => ?_
  refine ContinuousOn.mul continuousOn_const ?_
  by_cases hs : sq x i j = 0
  · simp only [hs, zero_mul]
    exact continuousOn_const
  · refine ContinuousOn.mul continuousOn_const (ContinuousOn.log (by fun_prop) fun l hl => ?_)
    have := lt_of_le_of_ne (sq_nonneg' x i j) (Ne.symm hs)
    have hl : 0 ≤ l := hl
    linarith

theorem shift_anti (x : ι → Fin d → ℝ) {w : ι → ℝ} (h0 : ∑ i, w i = 0) : AntitoneOn (shift x w) (Set.Ici 0) := by
  refine antitoneOn_of_deriv_nonpos (convex_Ici 0) (shift_continuousOn x w) ?_ ?_
  · intro l hl
    rw [interior_Ici] at hl
    exact (shift_deriv x h0 hl).differentiableAt.differentiableWithinAt
  · intro l hl
    rw [interior_Ici] at hl
    rw [(shift_deriv x h0 hl).deriv]
    have := inv_nonneg' x w hl
    have hl : 0 < l := hl
    nlinarith

theorem shift_tendsto (x : ι → Fin d → ℝ) {w : ι → ℝ} (h0 : ∑ i, w i = 0) (h1 : ∀ k, ∑ i, w i * x i k = 0) :
    Tendsto (shift x w) atTop (𝓝 0) := by
  have e : (fun l => quad x w fun s => s * Real.log (1 + s / l)) =ᶠ[atTop] shift x w := by
    filter_upwards [eventually_gt_atTop 0] with l hl
    have : shift x w l = quad x w (fun s => s * Real.log (1 + s / l) + Real.log l * s) := by
      unfold shift
      refine quad_congr x w fun s hs => ?_
      have h2 : s + l = (1 + s / l) * l := by field_simp; ring
      have h3 : 1 + s / l ≠ 0 := by positivity
      rw [h2, Real.log_mul h3 hl.ne']
      ring
    rw [this, quad_add, quad_smul, quad_id x h0 h1]
    ring
  refine Tendsto.congr' e ?_
  have : (0 : ℝ) = quad x w fun _ => 0 := by simp [quad]
  rw [this]
  unfold quad
  refine tendsto_finset_sum _ fun i _ => tendsto_finset_sum _ fun j _ => Tendsto.const_mul _ ?_
  have h4 : Tendsto (fun l : ℝ => 1 + sq x i j / l) atTop (𝓝 1) := by
    have := (tendsto_const_nhds (x := sq x i j)).div_atTop (tendsto_id (α := ℝ) (x := atTop))
    simpa using this.const_add 1
  have h5 := (h4.log one_ne_zero).const_mul (sq x i j)
  simpa using h5

/-- **`s log s` is conditionally positive semidefinite.** -/
theorem slogs_nonneg (x : ι → Fin d → ℝ) {w : ι → ℝ} (h0 : ∑ i, w i = 0) (h1 : ∀ k, ∑ i, w i * x i k = 0) :
    0 ≤ quad x w fun s => s * Real.log s := by
  have h : shift x w 0 = quad x w fun s => s * Real.log s := by simp [shift]
  rw [← h]
  refine le_of_tendsto (shift_tendsto x h0 h1) ?_
  filter_upwards [eventually_ge_atTop 0] with l hl
  exact shift_anti x h0 (Set.mem_Ici.mpr le_rfl) hl hl

/-- **`s log s` is conditionally positive definite at distinct points.** -/
theorem slogs_pos (x : ι → Fin d → ℝ) (hx : Function.Injective x) {w : ι → ℝ} (h0 : ∑ i, w i = 0) (h1 : ∀ k, ∑ i, w i * x i k = 0)
    (hz : (quad x w fun s => s * Real.log s) = 0) : w = 0 := by
  have h : shift x w 0 = 0 := by
    have : shift x w 0 = quad x w fun s => s * Real.log s := by simp [shift]
    rw [this, hz]
  have hc : ∀ l, 0 ≤ l → shift x w l = 0 := by
    intro l hl
    apply le_antisymm
    · rw [← h]
      exact shift_anti x h0 (Set.mem_Ici.mpr le_rfl) hl hl
    · refine le_of_tendsto (shift_tendsto x h0 h1) ?_
      filter_upwards [eventually_ge_atTop l] with m hm
      exact shift_anti x h0 hl (Set.mem_Ici.mpr (hl.trans hm)) hm
  have hd : ∀ l, 0 < l → quad x w (fun s => l / (s + l)) = 0 := by
    intro l hl
    have hl2 : HasDerivAt (shift x w) 0 l := by
      refine (hasDerivAt_const l (0 : ℝ)).congr_of_eventuallyEq ?_
      filter_upwards [eventually_gt_nhds hl] with m hm
      exact hc m hm.le
    have := hl2.unique (shift_deriv x h0 hl)
    have e : quad x w (fun s => l / (s + l)) = l * quad x w (fun s => 1 / (s + l)) := by
      rw [← quad_smul]
      exact quad_congr x w fun s _ => by ring
    rw [e]
    linarith
  have hl : Tendsto (fun l => quad x w fun s => l / (s + l)) (𝓝[>] 0) (𝓝 (quad x w fun s => if s = 0 then 1 else 0)) := by
    unfold quad
    refine tendsto_finset_sum _ fun i _ => tendsto_finset_sum _ fun j _ => Tendsto.const_mul _ ?_
    by_cases hs : sq x i j = 0
    · simp only [hs, if_true, zero_add]
      refine tendsto_const_nhds.congr' ?_
      filter_upwards [self_mem_nhdsWithin] with l hl
      have : l ≠ 0 := ne_of_gt hl
      field_simp
    · simp only [hs, if_false]
      have hc : ContinuousAt (fun l : ℝ => l / (sq x i j + l)) 0 := by
        refine ContinuousAt.div continuousAt_id (by fun_prop) ?_
        simpa using hs
      have := hc.tendsto
      simp only [zero_div] at this
      exact this.mono_left nhdsWithin_le_nhds
  have hl0 : Tendsto (fun l => quad x w fun s => l / (s + l)) (𝓝[>] 0) (𝓝 0) := by
    refine tendsto_const_nhds.congr' ?_
    filter_upwards [self_mem_nhdsWithin] with l hl
    exact (hd l hl).symm
  have hq := tendsto_nhds_unique hl hl0
  have hs : ∑ i, w i ^ 2 = 0 := by
    rw [← hq]
    unfold quad
    refine Finset.sum_congr rfl fun i _ => ?_
    rw [Finset.sum_eq_single i]
    · simp [sq_self, pow_two]
    · intro j _ hj
      have : sq x i j ≠ 0 := by
        intro h
        unfold sq at h
        rw [Finset.sum_eq_zero_iff_of_nonneg fun _ _ => sq_nonneg _] at h
        exact hj (hx (funext fun k => by have := h k (Finset.mem_univ k); have := pow_eq_zero_iff (two_ne_zero) |>.mp this; linarith))
      simp [this]
    · simp
  funext i
  rw [Finset.sum_eq_zero_iff_of_nonneg fun _ _ => sq_nonneg _] at hs
  exact pow_eq_zero_iff (two_ne_zero) |>.mp (hs i (Finset.mem_univ i))

end Verif.ThinPlate
