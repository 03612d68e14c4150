import Verif.Model.SurfacePhase
import Verif.Props.Spectrum
import Mathlib.Analysis.Real.Pi.Bounds
import Mathlib.Tactic.IntervalCases

/-!
# Phase of the frames of the surface tracking (C87, C88)
-/

namespace Verif
open Complex Finset Verif.Dft Verif.SurfacePhase

/-! ## C87: unwrapping -/

/-- Two angles are the same modulo `2 π`. -/
def SameAngle (x y : ℝ) : Prop := ∃ z : ℤ, x = y + 2 * Real.pi * z

/-- Neighbouring pixels differ by less than `π`, in the first `ny` lines and `nx` columns. -/
def Smooth (ny nx : ℕ) (phi : ℕ → ℕ → ℝ) : Prop :=
  (∀ i j, i < ny → j + 1 < nx → |phi i (j + 1) - phi i j| < Real.pi)
  ∧ (∀ i j, i + 1 < ny → j < nx → |phi (i + 1) j - phi i j| < Real.pi)

theorem sp_phCorrect (dd : ℝ) : (∃ z : ℤ, phCorrect dd = 2 * Real.pi * z) ∧ |dd + phCorrect dd| ≤ Real.pi := by
  have hpi := Real.pi_pos
  unfold phCorrect
  split
  · rename_i h
    refine ⟨⟨0, by simp⟩, ?_⟩
    rw [add_zero]; exact h.le
  · have h0 : ∃ f : ℤ, ddMod dd = dd - 2 * Real.pi * f ∧ -Real.pi ≤ ddMod dd ∧ ddMod dd < Real.pi := by
      have h1 : ((⌊(dd + Real.pi) / (2 * Real.pi)⌋ : ℤ) : ℝ) * (2 * Real.pi) ≤ dd + Real.pi := by
        rw [← le_div_iff₀ (by positivity)]; exact Int.floor_le _
      have h2 : dd + Real.pi < (((⌊(dd + Real.pi) / (2 * Real.pi)⌋ : ℤ) : ℝ) + 1) * (2 * Real.pi) := by
        rw [← div_lt_iff₀ (by positivity)]; exact Int.lt_floor_add_one _
      refine ⟨⌊(dd + Real.pi) / (2 * Real.pi)⌋, ?_, ?_, ?_⟩ <;> unfold ddMod npMod <;> linarith
    obtain ⟨f, h1, h2, h3⟩ := h0
    split
    · rename_i h
      refine ⟨⟨-f + 1, ?_⟩, ?_⟩
      · push_cast; linarith [h.1]
      · rw [add_sub_cancel, abs_of_pos hpi]
    · refine ⟨⟨-f, by rw [h1]; push_cast; ring⟩, ?_⟩
      rw [add_sub_cancel, abs_le]
      constructor <;> linarith

theorem sp_phCorrect_unique (dd d : ℝ) (hd : |d| < Real.pi) (h : SameAngle dd d) : dd + phCorrect dd = d := by
  obtain ⟨z, hz⟩ := h
  obtain ⟨⟨w, hw⟩, hb⟩ := sp_phCorrect dd
  have hpi := Real.pi_pos
  have he : dd + phCorrect dd - d = 2 * Real.pi * ((z + w : ℤ) : ℝ) := by push_cast; rw [hw, hz]; ring
  rw [abs_lt] at hd
  rw [abs_le] at hb
  have h1 : ((z + w : ℤ) : ℝ) < 1 := by
    by_contra hc
    push Not at hc
    nlinarith
  have h2 : -1 < ((z + w : ℤ) : ℝ) := by
    by_contra hc
    push Not at hc
    nlinarith
  have h3 : z + w = 0 := by
    have a1 : z + w < 1 := by exact_mod_cast h1
    have a2 : -1 < z + w := by exact_mod_cast h2
    omega
  rw [h3] at he
  simp at he
  linarith

theorem sp_unwrap1_succ (p : ℕ → ℝ) (j : ℕ) :
    unwrap1 p (j + 1) - unwrap1 p j = (p (j + 1) - p j) + phCorrect (p (j + 1) - p j) := by
  unfold unwrap1
  rw [sum_range_succ]
  ring

theorem sp_unwrap1_same (p : ℕ → ℝ) (j : ℕ) : SameAngle (unwrap1 p j) (p j) := by
  induction j with
  | zero => exact ⟨0, by simp [unwrap1]⟩
  | succ j ih =>
    obtain ⟨z, hz⟩ := ih
    obtain ⟨w, hw⟩ := (sp_phCorrect (p (j + 1) - p j)).1
    refine ⟨z + w, ?_⟩
    have := sp_unwrap1_succ p j
    push_cast
    linarith

/-- One dimension: a signal with steps less than `π` is recovered. -/
theorem sp_unwrap1_recover (p phi : ℕ → ℝ) (n : ℕ) (hs : ∀ j, j + 1 < n → |phi (j + 1) - phi j| < Real.pi)
    (hp : ∀ j, j < n → SameAngle (p j) (phi j)) (j : ℕ) (hj : j < n) :
    unwrap1 p j = phi j + (p 0 - phi 0) := by
  induction j with
  | zero => simp [unwrap1]
  | succ j ih =>
    have h0 := ih (by omega)
    have h1 := sp_unwrap1_succ p j
    have h2 : SameAngle (p (j + 1) - p j) (phi (j + 1) - phi j) := by
      obtain ⟨z, hz⟩ := hp (j + 1) hj
      obtain ⟨w, hw⟩ := hp j (by omega)
      exact ⟨z - w, by push_cast; rw [hz, hw]; ring⟩
    rw [sp_phCorrect_unique _ _ (hs j hj) h2] at h1
    linarith

/-- The unwrapped phase is the phase modulo `2 π`. -/
theorem C87_same_angle (a : ℕ → ℕ → ℝ) (i j : ℕ) : SameAngle (unwrap2 a i j) (a i j) := by
  obtain ⟨z, hz⟩ := sp_unwrap1_same (fun i => unwrapLines a i j) i
  obtain ⟨w, hw⟩ := sp_unwrap1_same (a i) j
  refine ⟨z + w, ?_⟩
  unfold unwrap2 unwrapColumns
  rw [hz]
  simp only [unwrapLines]
  rw [hw]
  push_cast
  ring

/-- If the angles are those (modulo `2 π`) of a surface for which the neighbouring pixels differ by less than `π`, the
unwrapped phase is this surface, up to one constant for all the pixels, which is a multiple of `2 π`. -/
theorem C87_recover (ny nx : ℕ) (a phi : ℕ → ℕ → ℝ) (hs : Smooth ny nx phi)
    (ha : ∀ i j, i < ny → j < nx → SameAngle (a i j) (phi i j)) (hy : 0 < ny) (hx : 0 < nx) :
    ∃ z : ℤ, ∀ i j, i < ny → j < nx → unwrap2 a i j = phi i j + 2 * Real.pi * z := by
  obtain ⟨z, hz⟩ := ha 0 0 hy hx
  refine ⟨z, fun i j hi hj => ?_⟩
  have hl : ∀ i, i < ny → unwrapLines a i j = phi i j + (a i 0 - phi i 0) := fun i hi =>
    sp_unwrap1_recover (a i) (phi i) nx (fun j h => hs.1 i j hi h) (fun j h => ha i j hi h) j hj
  have hc := sp_unwrap1_recover (fun i => unwrapLines a i j) (fun i => phi i j) ny (fun i h => hs.2 i j h hj)
    (fun i h => by
      obtain ⟨w, hw⟩ := ha i 0 h hx
      exact ⟨w, by rw [hl i h, hw]; ring⟩) i hi
  have h0 := hl 0 hy
  unfold unwrap2 unwrapColumns
  rw [hc, h0, hz]
  ring

/-- In a column, two neighbouring pixels of the unwrapped phase differ by at most `π`, for any angles. -/
theorem C87_columns (a : ℕ → ℕ → ℝ) (i j : ℕ) : |unwrap2 a (i + 1) j - unwrap2 a i j| ≤ Real.pi := by
  unfold unwrap2 unwrapColumns
  rw [sp_unwrap1_succ]
  exact (sp_phCorrect _).2

/-- The first line is unwrapped and is not changed by the unwrapping of the columns. -/
theorem C87_first_line (a : ℕ → ℕ → ℝ) (j : ℕ) :
    unwrap2 a 0 0 = a 0 0 ∧ |unwrap2 a 0 (j + 1) - unwrap2 a 0 j| ≤ Real.pi := by
  constructor
  · simp [unwrap2, unwrapColumns, unwrapLines, unwrap1]
  · have h : ∀ j, unwrap2 a 0 j = unwrap1 (a 0) j := by
      intro j
      simp [unwrap2, unwrapColumns, unwrapLines, unwrap1]
    rw [h, h, sp_unwrap1_succ]
    exact (sp_phCorrect _).2

/-- Four angles around which the phase turns by `2 π`. -/
noncomputable def vortex (i j : ℕ) : ℝ :=
  if i = 0 then (if j = 0 then 0 else 2) else (if j = 0 then -2 else 4 - 2 * Real.pi)

/-- In a line, two neighbouring pixels of the unwrapped phase can differ by more than `π` (nearly by `2 π`): the unwrapping
of the columns destroys that of the lines. -/
theorem C87_lines_fails :
    (∀ i j, i < 2 → j < 2 → -Real.pi < vortex i j ∧ vortex i j ≤ Real.pi)
    ∧ ¬ |unwrap2 vortex 1 1 - unwrap2 vortex 1 0| ≤ Real.pi := by
  have h3 := Real.pi_gt_three
  have h4 := Real.pi_lt_d2
  refine ⟨?_, ?_⟩
  · intro i j hi hj
    interval_cases i <;> interval_cases j <;> simp [vortex] <;> constructor <;> linarith
  · have e0 : ∀ dd : ℝ, |dd| < Real.pi → phCorrect dd = 0 := fun dd h => by unfold phCorrect; rw [if_pos h]
    have l00 : unwrapLines vortex 0 0 = 0 := by simp [unwrapLines, unwrap1, vortex]
    have l10 : unwrapLines vortex 1 0 = -2 := by simp [unwrapLines, unwrap1, vortex]
    have l01 : unwrapLines vortex 0 1 = 2 := by
      simp only [unwrapLines, unwrap1, sum_range_one]
      rw [e0 _ (by simp [vortex]; linarith)]
      simp [vortex]
    have l11 : unwrapLines vortex 1 1 = 4 - 2 * Real.pi := by
      simp only [unwrapLines, unwrap1, sum_range_one]
      rw [e0 _ (by simp [vortex]; rw [abs_lt]; constructor <;> linarith)]
      simp [vortex]
    have c0 : unwrap2 vortex 1 0 = -2 := by
      simp only [unwrap2, unwrapColumns, unwrap1, sum_range_one]
      rw [l10, l00, e0 _ (by norm_num; linarith)]
      ring
    have c1 : unwrap2 vortex 1 1 = 4 := by
      simp only [unwrap2, unwrapColumns, unwrap1, sum_range_one]
      rw [l11, l01]
      have := sp_phCorrect_unique (4 - 2 * Real.pi - 2) 2 (by norm_num; linarith) ⟨-1, by push_cast; ring⟩
      linarith
    rw [c0, c1]
    norm_num
    linarith

/-- Non-vacuity of `C87_recover`: a surface whose phase goes through several periods. -/
example : Smooth 10 10 (fun i j => 2 * (i : ℝ) + 3 * j) ∧
    ∀ i j, i < 10 → j < 10 → SameAngle (Complex.arg (Complex.exp ((2 * (i : ℝ) + 3 * j : ℝ) * I))) (2 * (i : ℝ) + 3 * j) := by
  have h3 := Real.pi_gt_three
  refine ⟨⟨?_, ?_⟩, ?_⟩
  · intro i j _ _
    push_cast
    rw [show 2 * (i : ℝ) + 3 * (j + 1) - (2 * (i : ℝ) + 3 * j) = 3 by ring]
    rw [abs_of_pos (by norm_num)]; exact h3
  · intro i j _ _
    push_cast
    rw [show 2 * ((i : ℝ) + 1) + 3 * j - (2 * (i : ℝ) + 3 * j) = 2 by ring]
    rw [abs_of_pos (by norm_num)]; linarith
  · intro i j _ _
    rw [Complex.arg_exp_mul_I]
    refine ⟨-toIocDiv Real.two_pi_pos (-Real.pi) (2 * (i : ℝ) + 3 * j), ?_⟩
    have := toIocMod_add_toIocDiv_zsmul Real.two_pi_pos (-Real.pi) (2 * (i : ℝ) + 3 * j)
    simp only [zsmul_eq_mul] at this
    push_cast
    linarith

/-! ## C88: gain, filter and wave vector -/

/-- The transfer function of the filter: low-pass with the width `k_x / slicer / l_x`, a factor between `1` and `e`, and
two notches at the frequencies `± k_x / l_x`. -/
noncomputable def transfer (kx slicer : ℝ) (lx : ℕ) (fx fy : ℝ) : ℝ :=
  Real.exp (-((fx ^ 2 + fy ^ 2) / 2 / (kx / slicer / lx) ^ 2))
    * Real.exp (1 - 1 / (1 + ((fx + kx) ^ 2 + fy ^ 2) / kx ^ 2))
    * (1 - Real.exp (-(((fx + kx / lx) ^ 2 + fy ^ 2) / 2 / (kx / 10 / lx) ^ 2)))
    * (1 - Real.exp (-(((fx - kx / lx) ^ 2 + fy ^ 2) / 2 / (kx / 10 / lx) ^ 2)))

/-- A grid with `a` periods in the width and `b` periods in the height of the window. -/
noncomputable def gridFrame (ly lx : ℕ) (A θ : ℝ) (a b : ℤ) (i j : ℕ) : ℝ :=
  A * Real.cos (2 * Real.pi * (a * j / lx + b * i / ly) + θ)

/-- The amplitude of the component of an image with `ν` periods in the width and `μ` periods in the height. -/
noncomputable def amplitude (ly lx : ℕ) (ref : ℕ → ℕ → ℝ) (μ ν : ℝ) : ℝ :=
  ‖∑ i ∈ range ly, ∑ j ∈ range lx, (ref i j : ℂ) * Complex.exp (-(2 * Real.pi * I * (μ * i / ly + ν * j / lx)))‖

theorem sp_filt (kx slicer : ℝ) (ly lx l k : ℕ) :
    filt kx slicer ly lx l k = transfer kx slicer lx (freq lx (shiftIdx lx k)) (freq ly (shiftIdx ly l)) := by
  unfold filt transfer low notchLeft notchRight
  ring

/-- The frequencies of the filter, for any sizes. -/
theorem sp_freq (n : ℕ) (hn : 0 < n) (k : ℕ) (hk : k < n) :
    freq n (shiftIdx n k) = (if k < n / 2 then (k : ℝ) else (k : ℝ) - n) / n + ((n % 2 : ℕ) : ℝ) / 2 / n := by
  have hn' : (n : ℝ) ≠ 0 := by exact_mod_cast hn.ne'
  have h2 : (n : ℝ) = 2 * ((n / 2 : ℕ) : ℝ) + ((n % 2 : ℕ) : ℝ) := by exact_mod_cast (Nat.div_add_mod n 2).symm
  unfold freq shiftIdx
  split
  · rw [← add_div]
    congr 1
    rw [Nat.cast_add, Nat.cast_sub (Nat.div_le_self n 2)]
    linarith
  · rw [← add_div]
    congr 1
    rw [Nat.cast_sub (by omega)]
    linarith

theorem sp_freq_even (n : ℕ) (hn : 0 < n) (he : n % 2 = 0) (p : ℤ) :
    freq n (shiftIdx n (p % n).toNat) = (Int.bmod p n : ℝ) / n := by
  have h0 := Int.emod_nonneg p (show (n : ℤ) ≠ 0 by omega)
  have h1 := Int.emod_lt_of_pos p (show (0 : ℤ) < n by omega)
  rw [sp_freq n hn _ (by omega), he]
  simp only [Nat.cast_zero, zero_div, add_zero]
  congr 1
  have hc : (((p % n).toNat : ℕ) : ℝ) = ((p % n : ℤ) : ℝ) := by
    rw [← Int.cast_natCast, Int.toNat_of_nonneg h0]
  rw [hc]
  unfold Int.bmod
  by_cases h : (p % n).toNat < n / 2
  · rw [if_pos h, if_pos (by omega)]
  · rw [if_neg h, if_neg (by omega)]
    push_cast
    ring

theorem sp_gain (m lx : ℕ) (hx : 0 < lx) (j : ℕ) : gain m lx j = (-1) ^ m * e lx (-((m : ℤ) * j)) := by
  have hn' : (lx : ℂ) ≠ 0 := by exact_mod_cast hx.ne'
  have h1 : ((-1 : ℂ)) ^ m = Complex.exp (Real.pi * I * m) := by
    rw [mul_comm, Complex.exp_nat_mul, Complex.exp_pi_mul_I]
  rw [h1]
  unfold gain e freq
  rw [← Complex.exp_add]
  congr 1
  push_cast
  field_simp
  ring

theorem sp_fft_e (n : ℕ) (hn : 0 < n) (p : ℤ) (k : ℕ) (hk : k < n) :
    ∑ j ∈ range n, e n (p * j) * e n (-((j : ℤ) * k)) = if k = (p % n).toNat then (n : ℂ) else 0 := by
  have h1 : ∀ j ∈ range n, e n (p * j) * e n (-((j : ℤ) * k)) = e n ((p - k) * (j : ℕ)) := by
    intro j _
    rw [← e_add]
    congr 1
    ring
  rw [sum_congr rfl h1, orth n hn]
  have h0 := Int.emod_nonneg p (show (n : ℤ) ≠ 0 by omega)
  have : ((n : ℤ) ∣ p - k) ↔ k = (p % n).toNat := by
    constructor
    · intro h
      have h2 : p % n = (k : ℤ) % n := (Int.modEq_iff_dvd.2 h).symm
      rw [Int.emod_eq_of_lt (by omega) (by omega : (k : ℤ) < n)] at h2
      omega
    · intro h
      have h3 : (k : ℤ) = p % n := by omega
      rw [h3]
      exact Int.dvd_self_sub_emod
  simp only [this]

/-- The response of a product in Fourier space to an exponential. -/
theorem sp_response (ny nx : ℕ) (hy : 0 < ny) (hx : 0 < nx) (S : ℕ → ℕ → ℂ) (c : ℂ) (p q : ℤ) (i j : ℕ) :
    ifft2 ny nx (fun l k => fft2 ny nx (fun i j => c * (e ny (q * i) * e nx (p * j))) l k * S l k) i j
      = c * S (q % ny).toNat (p % nx).toNat * (e ny (q * i) * e nx (p * j)) := by
  have hy' : (ny : ℂ) ≠ 0 := by exact_mod_cast hy.ne'
  have hx' : (nx : ℂ) ≠ 0 := by exact_mod_cast hx.ne'
  have q0 := Int.emod_nonneg q (show (ny : ℤ) ≠ 0 by omega)
  have q1 := Int.emod_lt_of_pos q (show (0 : ℤ) < ny by omega)
  have p0 := Int.emod_nonneg p (show (nx : ℤ) ≠ 0 by omega)
  have p1 := Int.emod_lt_of_pos p (show (0 : ℤ) < nx by omega)
  have hf : ∀ l k, l < ny → k < nx → fft2 ny nx (fun i j => c * (e ny (q * i) * e nx (p * j))) l k
      = c * ((if l = (q % ny).toNat then (ny : ℂ) else 0) * (if k = (p % nx).toNat then (nx : ℂ) else 0)) := by
    intro l k hl hk
    rw [← sp_fft_e ny hy q l hl, ← sp_fft_e nx hx p k hk, sum_mul_sum, mul_sum]
    unfold fft2
    apply sum_congr rfl
    intro i _
    rw [mul_sum]
    apply sum_congr rfl
    intro j _
    ring
  unfold ifft2
  rw [sum_congr rfl (fun l hl => sum_congr rfl (fun k hk => by
    beta_reduce; rw [hf l k (mem_range.1 hl) (mem_range.1 hk)]))]
  rw [sum_eq_single_of_mem (q % ny).toNat (mem_range.2 (by omega)) (fun l _ hl => by
    apply sum_eq_zero; intro k _; simp [hl])]
  rw [sum_eq_single_of_mem (p % nx).toNat (mem_range.2 (by omega)) (fun k _ hk => by simp [hk])]
  rw [if_pos rfl, if_pos rfl]
  have e1 : ∀ (n : ℕ) (hn : 0 < n) (p : ℤ) (i : ℕ), e n ((i : ℤ) * ((p % n).toNat : ℕ)) = e n (p * i) := by
    intro n hn p i
    rw [Int.toNat_of_nonneg (Int.emod_nonneg p (show (n : ℤ) ≠ 0 by omega))]
    rw [← e_period n hn ((i : ℤ) * (p % n)) (i * (p / n))]
    congr 1
    have := Int.emod_add_mul_ediv p n
    conv_rhs => rw [← this]
    ring
  rw [e1 ny hy, e1 nx hx]
  field_simp

theorem sp_inversed_add (kx slicer : ℝ) (ly lx : ℕ) (f g : ℕ → ℕ → ℝ) (i j : ℕ) :
    inversed kx slicer ly lx (fun i j => f i j + g i j) i j
      = inversed kx slicer ly lx f i j + inversed kx slicer ly lx g i j := by
  unfold inversed ifft2
  rw [← add_div, ← sum_add_distrib]
  congr 1
  apply sum_congr rfl
  intro l _
  rw [← sum_add_distrib]
  apply sum_congr rfl
  intro k _
  have : rectify kx slicer ly lx (fun i j => f i j + g i j) l k
      = rectify kx slicer ly lx f l k + rectify kx slicer ly lx g l k := by
    unfold rectify fft2
    rw [← add_mul, ← sum_add_distrib]
    congr 1
    apply sum_congr rfl
    intro i _
    rw [← sum_add_distrib]
    apply sum_congr rfl
    intro j _
    push_cast
    ring
  rw [this]
  ring

theorem sp_inversed_mul (kx slicer : ℝ) (ly lx : ℕ) (c : ℝ) (f : ℕ → ℕ → ℝ) (i j : ℕ) :
    inversed kx slicer ly lx (fun i j => c * f i j) i j = c * inversed kx slicer ly lx f i j := by
  unfold inversed ifft2
  rw [← mul_div_assoc, mul_sum]
  congr 1
  apply sum_congr rfl
  intro l _
  rw [mul_sum]
  apply sum_congr rfl
  intro k _
  have : rectify kx slicer ly lx (fun i j => c * f i j) l k = c * rectify kx slicer ly lx f l k := by
    unfold rectify fft2
    rw [← mul_assoc, mul_sum]
    congr 1
    apply sum_congr rfl
    intro i _
    rw [mul_sum]
    apply sum_congr rfl
    intro j _
    push_cast
    ring
  rw [this]
  ring

/-- The contrast of the frame has no effect on the phase. -/
theorem C88_contrast (kx slicer : ℝ) (ly lx red : ℕ) (c : ℝ) (hc : 0 < c) (f : ℕ → ℕ → ℝ) :
    phase kx slicer ly lx red (fun i j => c * f i j) = phase kx slicer ly lx red f := by
  unfold phase
  congr 1
  funext i j
  rw [sp_inversed_mul, Complex.arg_real_mul _ hc]

/-- The reduction of the frame: the pixel `(i, j)` of the phase computed with a reduction factor is, modulo `2 π`, the pixel
`(red * i, red * j)` of the phase of the full frame, and the angle of the filtered frame there. -/
theorem C88_reduction (kx slicer : ℝ) (ly lx red : ℕ) (frame : ℕ → ℕ → ℝ) (i j : ℕ) :
    SameAngle (phase kx slicer ly lx red frame i j) (phase kx slicer ly lx 1 frame (red * i) (red * j)) ∧
    SameAngle (phase kx slicer ly lx red frame i j) (Complex.arg (inversed kx slicer ly lx frame (red * i) (red * j))) := by
  have h1 := C87_same_angle (fun i j => Complex.arg (inversed kx slicer ly lx frame (red * i) (red * j))) i j
  have h2 := C87_same_angle (fun i j => Complex.arg (inversed kx slicer ly lx frame (1 * i) (1 * j))) (red * i) (red * j)
  rw [one_mul, one_mul] at h2
  refine ⟨?_, h1⟩
  obtain ⟨z1, e1⟩ := h1
  obtain ⟨z2, e2⟩ := h2
  refine ⟨z1 - z2, ?_⟩
  unfold phase
  push_cast
  linarith

theorem sp_grid_gain (ly lx : ℕ) (hy : 0 < ly) (hx : 0 < lx) (m : ℕ) (A θ : ℝ) (p q : ℤ) (i j : ℕ) :
    (gridFrame ly lx A θ (m + p) q i j : ℂ) * gain m lx j
      = (A / 2 * (-1) ^ m * Complex.exp (θ * I)) * (e ly (q * i) * e lx (p * j))
        + (A / 2 * (-1) ^ m * Complex.exp (-(θ * I))) * (e ly (-q * i) * e lx (-(2 * m + p) * j)) := by
  have hn' : (lx : ℂ) ≠ 0 := by exact_mod_cast hx.ne'
  have hy' : (ly : ℂ) ≠ 0 := by exact_mod_cast hy.ne'
  rw [sp_gain m lx hx]
  unfold gridFrame
  have hcos : ((Real.cos (2 * Real.pi * (((m + p : ℤ) : ℝ) * j / lx + q * i / ly) + θ) : ℝ) : ℂ)
      = (Complex.exp (θ * I) * (e ly (q * i) * e lx ((m + p) * j))
          + Complex.exp (-(θ * I)) * (e ly (-q * i) * e lx (-(m + p) * j))) / 2 := by
    rw [Complex.ofReal_cos, Complex.cos]
    congr 1
    unfold e
    rw [← Complex.exp_add, ← Complex.exp_add, ← Complex.exp_add, ← Complex.exp_add]
    congr 1
    · congr 1
      push_cast
      field_simp
      ring
    · congr 1
      push_cast
      field_simp
      ring
  rw [Complex.ofReal_mul, hcos]
  have e1 : e lx (p * j) = e lx ((m + p) * j) * e lx (-((m : ℤ) * j)) := by
    rw [← e_add]; congr 1; ring
  have e2 : e lx (-(2 * m + p) * j) = e lx (-(m + p) * j) * e lx (-((m : ℤ) * j)) := by
    rw [← e_add]; congr 1; ring
  rw [e1, e2]
  ring

/-- The filtered frame of a grid, for any filter. -/
theorem sp_inversed_grid (ly lx : ℕ) (hy : 0 < ly) (hx : 0 < lx) (m : ℕ) (slicer A θ : ℝ) (p q : ℤ) (i j : ℕ) :
    inversed m slicer ly lx (gridFrame ly lx A θ (m + p) q) i j
      = A / 2 * (-1) ^ m * Complex.exp (θ * I) * (filt m slicer ly lx (q % ly).toNat (p % lx).toNat : ℝ)
          * (e ly (q * i) * e lx (p * j))
        + A / 2 * (-1) ^ m * Complex.exp (-(θ * I))
          * (filt m slicer ly lx (-q % ly).toNat (-(2 * m + p) % lx).toNat : ℝ)
          * (e ly (-q * i) * e lx (-(2 * m + p) * j)) := by
  unfold inversed
  rw [← sp_response ly lx hy hx (fun l k => (filt m slicer ly lx l k : ℂ)) _ p q i j,
    ← sp_response ly lx hy hx (fun l k => (filt m slicer ly lx l k : ℂ)) _ (-(2 * m + p)) (-q) i j]
  unfold ifft2
  rw [← add_div, ← sum_add_distrib]
  congr 1
  apply sum_congr rfl
  intro l _
  rw [← sum_add_distrib]
  apply sum_congr rfl
  intro k _
  rw [← add_mul, ← add_mul]
  congr 2
  unfold rectify
  congr 1
  unfold fft2
  rw [← sum_add_distrib]
  apply sum_congr rfl
  intro i _
  rw [← sum_add_distrib]
  apply sum_congr rfl
  intro j _
  beta_reduce
  rw [sp_grid_gain ly lx hy hx]
  ring

/-- Even sizes, `m` periods of the grid in the width of the window.  A grid with `m + p` and `q` periods gives a component
with `p` and `q` periods (the difference with the flat surface), multiplied by the transfer function at the corresponding
frequencies, and a component with `-(2 m + p)` and `-q` periods, multiplied by the transfer function at these frequencies
(the frequencies are aliased to `[-1/2, 1/2)`). -/
theorem C88_response_partial (ly lx : ℕ) (hy : 0 < ly) (hx : 0 < lx) (hye : ly % 2 = 0) (hxe : lx % 2 = 0) (m : ℕ)
    (slicer A θ : ℝ) (p q : ℤ) (i j : ℕ) :
    inversed m slicer ly lx (gridFrame ly lx A θ (m + p) q) i j
      = A / 2 * (-1) ^ m * Complex.exp (θ * I)
          * (transfer m slicer lx ((Int.bmod p lx : ℝ) / lx) ((Int.bmod q ly : ℝ) / ly) : ℝ)
          * (e ly (q * i) * e lx (p * j))
        + A / 2 * (-1) ^ m * Complex.exp (-(θ * I))
          * (transfer m slicer lx ((Int.bmod (-(2 * m + p)) lx : ℝ) / lx) ((Int.bmod (-q) ly : ℝ) / ly) : ℝ)
          * (e ly (-q * i) * e lx (-(2 * m + p) * j)) := by
  rw [sp_inversed_grid ly lx hy hx, sp_filt, sp_filt, sp_freq_even lx hx hxe, sp_freq_even lx hx hxe,
    sp_freq_even ly hy hye, sp_freq_even ly hy hye]

theorem sp_uniform (ly lx : ℕ) (hy : 0 < ly) (hx : 0 < lx) (m : ℕ) (slicer c : ℝ) (i j : ℕ) :
    inversed m slicer ly lx (fun _ _ => c) i j
      = c * (-1) ^ m * (filt m slicer ly lx 0 (-(m : ℤ) % lx).toNat : ℝ) * e lx (-(m : ℤ) * j) := by
  have h := sp_response ly lx hy hx (fun l k => (filt m slicer ly lx l k : ℂ)) (c * (-1) ^ m) (-m) 0 i j
  simp only [zero_mul, e_zero, one_mul, Int.zero_emod, Int.toNat_zero] at h
  rw [← h]
  unfold inversed ifft2
  congr 1
  apply sum_congr rfl
  intro l _
  apply sum_congr rfl
  intro k _
  congr 1
  unfold rectify
  congr 1
  unfold fft2
  apply sum_congr rfl
  intro i _
  apply sum_congr rfl
  intro j _
  beta_reduce
  rw [sp_gain m lx hx, show -((m : ℤ) * (j : ℤ)) = -(m : ℤ) * j by ring]
  ring

theorem sp_transfer_left (kx slicer : ℝ) (lx : ℕ) : transfer kx slicer lx (-(kx / lx)) 0 = 0 := by
  unfold transfer
  simp

/-- Even sizes, and a whole number of periods of the grid in the width of the window: a uniform light added to the frame has
no effect. -/
theorem C88_light_partial (ly lx : ℕ) (hy : 0 < ly) (hye : ly % 2 = 0) (hxe : lx % 2 = 0) (m : ℕ) (hm : 0 < m)
    (hm2 : 2 * m ≤ lx) (slicer c : ℝ) (red : ℕ) (f : ℕ → ℕ → ℝ) :
    inversed m slicer ly lx (fun i j => f i j + c) = inversed m slicer ly lx f
    ∧ phase m slicer ly lx red (fun i j => f i j + c) = phase m slicer ly lx red f := by
  have hx : 0 < lx := by omega
  have h0 : inversed m slicer ly lx (fun i j => f i j + c) = inversed m slicer ly lx f := by
    funext i j
    rw [sp_inversed_add m slicer ly lx f (fun _ _ => c), sp_uniform ly lx hy hx, sp_filt, sp_freq_even lx hx hxe]
    have h1 : freq ly (shiftIdx ly 0) = 0 := by
      have := sp_freq_even ly hy hye 0
      simpa using this
    have h2 : Int.bmod (-(m : ℤ)) lx = -(m : ℤ) := by
      unfold Int.bmod
      have : (-(m : ℤ)) % lx = lx - m := by
        rw [← Int.add_emod_right, Int.emod_eq_of_lt (by omega) (by omega)]; ring
      rw [this]
      rw [if_neg (by omega)]
      ring
    rw [h1, h2]
    have h3 : (((-(m : ℤ) : ℤ) : ℝ)) / lx = -((m : ℝ) / lx) := by push_cast; ring
    rw [h3, sp_transfer_left]
    simp
  refine ⟨h0, ?_⟩
  unfold phase
  rw [h0]

theorem sp_notch_ne (a b : ℝ) (h : a ≠ 0) (hb : b ≠ 0) (y : ℝ) : 1 - Real.exp (-((a ^ 2 + y ^ 2) / 2 / b ^ 2)) ≠ 0 := by
  have : 0 < (a ^ 2 + y ^ 2) / 2 / b ^ 2 := by
    have := sq_nonneg y
    positivity
  have := Real.exp_lt_one_iff.2 (show -((a ^ 2 + y ^ 2) / 2 / b ^ 2) < 0 by linarith)
  linarith

/-- With an odd width (as with the default parameters: `640 - 475 = 165`), the frequencies of the filter are all wrong by
half of the resolution: a uniform light has an effect on all the pixels. -/
theorem C88_light_odd_fails (ly lx : ℕ) (hy : 0 < ly) (hxo : lx % 2 = 1) (m : ℕ) (hm : 0 < m) (slicer : ℝ) (i j : ℕ) :
    inversed m slicer ly lx (fun _ _ => 1) i j ≠ inversed m slicer ly lx (fun _ _ => 0) i j := by
  have hx : 0 < lx := by omega
  have hx' : (lx : ℝ) ≠ 0 := by exact_mod_cast hx.ne'
  have hm' : (m : ℝ) ≠ 0 := by exact_mod_cast hm.ne'
  have h0 : inversed m slicer ly lx (fun _ _ => 0) i j = 0 := by
    rw [sp_uniform ly lx hy hx]; simp
  rw [h0, sp_uniform ly lx hy hx, sp_filt]
  have k0 := Int.emod_nonneg (-(m : ℤ)) (show (lx : ℤ) ≠ 0 by omega)
  have k1 := Int.emod_lt_of_pos (-(m : ℤ)) (show (0 : ℤ) < lx by omega)
  obtain ⟨w, hw⟩ : ∃ w : ℤ, freq lx (shiftIdx lx (-(m : ℤ) % lx).toNat) = (w + 1 / 2) / lx := by
    rw [sp_freq lx hx _ (by omega), hxo]
    split
    · exact ⟨(-(m : ℤ) % lx).toNat, by push_cast; ring⟩
    · exact ⟨(-(m : ℤ) % lx).toNat - lx, by push_cast; ring⟩
  rw [hw]
  have hhalf : ∀ z : ℤ, (z : ℝ) + 1 / 2 ≠ 0 := by
    intro z hz
    have : (2 * z + 1 : ℤ) = 0 := by
      have : (2 * (z : ℝ) + 1) = 0 := by linarith
      exact_mod_cast this
    omega
  have a1 : ((w : ℝ) + 1 / 2) / lx + (m : ℝ) / lx ≠ 0 := by
    rw [← add_div]
    have := hhalf (w + m)
    push_cast at this
    exact div_ne_zero (by intro h; apply this; linarith) hx'
  have a2 : ((w : ℝ) + 1 / 2) / lx - (m : ℝ) / lx ≠ 0 := by
    rw [← sub_div]
    have := hhalf (w - m)
    push_cast at this
    exact div_ne_zero (by intro h; apply this; linarith) hx'
  have hb : (m : ℝ) / 10 / lx ≠ 0 := by positivity
  have ht : transfer m slicer lx ((w + 1 / 2) / lx) (freq ly (shiftIdx ly 0)) ≠ 0 := by
    unfold transfer
    exact mul_ne_zero (mul_ne_zero (mul_ne_zero (Real.exp_ne_zero _) (Real.exp_ne_zero _)) (sp_notch_ne _ _ a1 hb _))
      (sp_notch_ne _ _ a2 hb _)
  have he : e lx (-(m : ℤ) * j) ≠ 0 := by unfold e; exact Complex.exp_ne_zero _
  refine mul_ne_zero (mul_ne_zero (mul_ne_zero (by simp) (pow_ne_zero _ (by norm_num))) ?_) he
  exact_mod_cast ht

/-! ### Wave vector -/

theorem sp_argmax (f : ℕ → ℝ) (n : ℕ) (hn : 0 < n) : argmaxFirst f n < n ∧ ∀ i, i < n → f i ≤ f (argmaxFirst f n) := by
  induction n with
  | zero => omega
  | succ n ih =>
    unfold argmaxFirst
    rcases Nat.eq_zero_or_pos n with h0 | h0
    · subst h0
      simp [argmaxFirst]
    · obtain ⟨h1, h2⟩ := ih h0
      split
      · rename_i h
        refine ⟨by omega, fun i hi => ?_⟩
        rcases Nat.lt_succ_iff_lt_or_eq.1 hi with h3 | h3
        · exact (h2 i h3).trans h.le
        · rw [h3]
      · rename_i h
        refine ⟨by omega, fun i hi => ?_⟩
        rcases Nat.lt_succ_iff_lt_or_eq.1 hi with h3 | h3
        · exact h2 i h3
        · rw [h3]; exact not_lt.1 h

theorem sp_padded (ly lx sur : ℕ) (hs : 0 < sur) (ref : ℕ → ℕ → ℝ) (l k : ℕ) (a b : ℤ) (ca cb : ℤ)
    (hl : (l : ℤ) = a + (ly * sur : ℕ) * ca) (hk : (k : ℤ) = b + (lx * sur : ℕ) * cb) :
    ‖fft2Padded ly lx (ly * sur) (lx * sur) ref l k‖ = amplitude ly lx ref (a / sur) (b / sur) := by
  unfold fft2Padded amplitude fft2
  congr 1
  have hle1 : ly ≤ ly * sur := Nat.le_mul_of_pos_right _ hs
  have hle2 : lx ≤ lx * sur := Nat.le_mul_of_pos_right _ hs
  rw [← sum_subset (range_subset_range.2 hle1) (fun i _ hi => by
    apply sum_eq_zero; intro j _; beta_reduce; rw [if_neg (by intro h; exact hi (mem_range.2 h.1)), zero_mul])]
  apply sum_congr rfl
  intro i hi
  rw [← sum_subset (range_subset_range.2 hle2) (fun j _ hj => by
    beta_reduce; rw [if_neg (by intro h; exact hj (mem_range.2 h.2)), zero_mul])]
  apply sum_congr rfl
  intro j hj
  rw [mem_range] at hi hj
  beta_reduce
  rw [if_pos ⟨hi, hj⟩]
  congr 1
  have e1 : e (ly * sur) (-((i : ℤ) * l)) = e (ly * sur) (-((i : ℤ) * a)) := by
    rw [← e_period (ly * sur) (Nat.mul_pos (by omega) hs) (-((i : ℤ) * a)) (-((i : ℤ) * ca)), hl]
    congr 1
    push_cast
    ring
  have e2 : e (lx * sur) (-((j : ℤ) * k)) = e (lx * sur) (-((j : ℤ) * b)) := by
    rw [← e_period (lx * sur) (Nat.mul_pos (by omega) hs) (-((j : ℤ) * b)) (-((j : ℤ) * cb)), hk]
    congr 1
    push_cast
    ring
  rw [e1, e2]
  unfold e
  rw [← Complex.exp_add]
  congr 1
  have h1 : (ly : ℂ) ≠ 0 := by exact_mod_cast (by omega : ly ≠ 0)
  have h2 : (lx : ℂ) ≠ 0 := by exact_mod_cast (by omega : lx ≠ 0)
  have h3 : (sur : ℂ) ≠ 0 := by exact_mod_cast hs.ne'
  push_cast
  field_simp
  ring

theorem sp_shift_int (n i : ℕ) (hi : i < n) :
    ∃ c : ℤ, ((shiftIdx n i : ℕ) : ℤ) = ((i : ℤ) - (n / 2 : ℕ)) + n * c := by
  unfold shiftIdx
  split
  · exact ⟨1, by omega⟩
  · exact ⟨0, by omega⟩

theorem sp_shift_surj (n : ℕ) (hn : 0 < n) (a : ℤ) :
    ∃ i, i < n ∧ ∃ c : ℤ, ((shiftIdx n i : ℕ) : ℤ) = a + n * c := by
  have h0 := Int.emod_nonneg (a + (n / 2 : ℕ)) (show (n : ℤ) ≠ 0 by omega)
  have h1 := Int.emod_lt_of_pos (a + (n / 2 : ℕ)) (show (0 : ℤ) < n by omega)
  refine ⟨((a + (n / 2 : ℕ)) % n).toNat, by omega, ?_⟩
  obtain ⟨c, hc⟩ := sp_shift_int n ((a + (n / 2 : ℕ)) % n).toNat (by omega)
  have h2 := Int.emod_add_mul_ediv (a + (n / 2 : ℕ)) n
  refine ⟨c - (a + (n / 2 : ℕ)) / n, ?_⟩
  rw [hc, Int.toNat_of_nonneg h0]
  linarith

/-- The value for any sizes: the frequency found minus half the resolution if the width is odd. -/
theorem sp_waveVector (ly lx sur : ℕ) (hy : 0 < ly) (hx : 0 < lx) (hs : 0 < sur) (ref : ℕ → ℕ → ℝ) :
    ∃ a b : ℤ, waveVector ly lx sur ref = |((b : ℝ) - ((lx * sur % 2 : ℕ) : ℝ) / 2) / sur|
      ∧ -((lx * sur : ℕ) : ℤ) ≤ 2 * b ∧ 2 * b ≤ (lx * sur : ℕ)
      ∧ ∀ a' b' : ℤ, amplitude ly lx ref (a' / sur) (b' / sur) ≤ amplitude ly lx ref (a / sur) (b / sur) := by
  have hNy : 0 < ly * sur := Nat.mul_pos hy hs
  have hNx : 0 < lx * sur := Nat.mul_pos hx hs
  obtain ⟨h1, h2⟩ := sp_argmax (columnMax ly lx sur ref) (lx * sur) hNx
  set idx := argmaxFirst (columnMax ly lx sur ref) (lx * sur) with hidx
  let f : ℕ → ℕ → ℝ := fun j i =>
    ‖fft2Padded ly lx (ly * sur) (lx * sur) ref (shiftIdx (ly * sur) i) (shiftIdx (lx * sur) j)‖
  have hcol : ∀ j, columnMax ly lx sur ref j = f j (argmaxFirst (f j) (ly * sur)) := fun j => rfl
  obtain ⟨h3, _⟩ := sp_argmax (f idx) (ly * sur) hNy
  obtain ⟨ca, hca⟩ := sp_shift_int (ly * sur) (argmaxFirst (f idx) (ly * sur)) h3
  obtain ⟨cb, hcb⟩ := sp_shift_int (lx * sur) idx h1
  refine ⟨(argmaxFirst (f idx) (ly * sur) : ℤ) - (ly * sur / 2 : ℕ), (idx : ℤ) - (lx * sur / 2 : ℕ), ?_, by omega, by omega, ?_⟩
  · unfold waveVector
    rw [← hidx]
    unfold kxma
    congr 2
    have hN : ((lx * sur : ℕ) : ℝ) = 2 * ((lx * sur / 2 : ℕ) : ℝ) + ((lx * sur % 2 : ℕ) : ℝ) := by
      exact_mod_cast (Nat.div_add_mod (lx * sur) 2).symm
    rw [← Nat.cast_mul, hN, Int.cast_sub, Int.cast_natCast, Int.cast_natCast]
    ring
  · intro a' b'
    obtain ⟨i', hi', c1, hc1⟩ := sp_shift_surj (ly * sur) hNy a'
    obtain ⟨j', hj', c2, hc2⟩ := sp_shift_surj (lx * sur) hNx b'
    rw [← sp_padded ly lx sur hs ref _ _ a' b' c1 c2 hc1 hc2, ← sp_padded ly lx sur hs ref _ _ _ _ ca cb hca hcb]
    have g1 := (sp_argmax (f j') (ly * sur) hNy).2 i' hi'
    have g2 := h2 j' hj'
    rw [hcol, hcol] at g2
    exact g1.trans g2

/-- If `(xmax - xmin) * sur` is even, the wave vector is, among the multiples of `1 / sur` in `[0, l_x / 2]`, the number of
periods of a component of the reference with the maximal amplitude. -/
theorem C88_wave_vector_partial (ly lx sur : ℕ) (hy : 0 < ly) (hx : 0 < lx) (hs : 0 < sur) (he : lx * sur % 2 = 0)
    (ref : ℕ → ℕ → ℝ) :
    ∃ a b : ℤ, waveVector ly lx sur ref = |(b : ℝ)| / sur ∧ 2 * |(b : ℝ)| / sur ≤ lx
      ∧ ∀ a' b' : ℤ, amplitude ly lx ref (a' / sur) (b' / sur) ≤ amplitude ly lx ref (a / sur) (b / sur) := by
  obtain ⟨a, b, h1, h2, h3, h4⟩ := sp_waveVector ly lx sur hy hx hs ref
  have hs' : (0 : ℝ) < sur := by exact_mod_cast hs
  refine ⟨a, b, ?_, ?_, h4⟩
  · rw [h1, he]
    simp [abs_div]
  · rw [div_le_iff₀ hs']
    have h2' : -((lx : ℝ) * sur) ≤ 2 * b := by exact_mod_cast h2
    have h3' : 2 * (b : ℝ) ≤ (lx : ℝ) * sur := by exact_mod_cast h3
    rcases abs_cases (b : ℝ) with ⟨h, _⟩ | ⟨h, _⟩ <;> rw [h] <;> linarith

theorem sp_amplitude_grid (ly lx : ℕ) (hy : 0 < ly) (hx : 0 < lx) (A θ : ℝ) (m a b : ℤ) :
    amplitude ly lx (gridFrame ly lx A θ m 0) a b
      = ‖(A / 2 : ℂ) * (if (ly : ℤ) ∣ -a then (ly : ℂ) else 0)
          * (Complex.exp (θ * I) * (if (lx : ℤ) ∣ m - b then (lx : ℂ) else 0)
            + Complex.exp (-(θ * I)) * (if (lx : ℤ) ∣ -m - b then (lx : ℂ) else 0))‖ := by
  have hn' : (lx : ℂ) ≠ 0 := by exact_mod_cast hx.ne'
  have hy' : (ly : ℂ) ≠ 0 := by exact_mod_cast hy.ne'
  unfold amplitude
  congr 1
  rw [← orth ly hy, ← orth lx hx, ← orth lx hx, mul_sum (range lx), mul_sum (range lx), ← sum_add_distrib,
    mul_assoc (A / 2 : ℂ), sum_mul_sum, mul_sum]
  apply sum_congr rfl
  intro i _
  rw [mul_sum]
  apply sum_congr rfl
  intro j _
  unfold gridFrame e
  rw [Complex.ofReal_mul, Complex.ofReal_cos, Complex.cos]
  have h1 : ∀ x y z w : ℂ, (A : ℂ) * ((x + y) / 2) * z = A / 2 * (x * z + y * z) := by intros; ring
  rw [h1 _ _ _ 0, mul_add (Complex.exp _), mul_add (A / 2 : ℂ), mul_add (A / 2 : ℂ), ← Complex.exp_add, ← Complex.exp_add,
    ← Complex.exp_add, ← Complex.exp_add, ← Complex.exp_add, ← Complex.exp_add]
  congr 2
  · congr 1
    push_cast
    field_simp
    ring
  · congr 1
    push_cast
    field_simp
    ring

/-- The component found in a grid without padding (`sur = 1`). -/
theorem sp_grid_found (ly lx : ℕ) (hy : 0 < ly) (A θ : ℝ) (hA : A ≠ 0) (m : ℕ) (hm : 0 < m) (hm2 : 2 * m < lx) :
    ∃ b : ℤ, (b = m ∨ b = -(m : ℤ))
      ∧ waveVector ly lx 1 (gridFrame ly lx A θ m 0) = |(b : ℝ) - ((lx % 2 : ℕ) : ℝ) / 2| := by
  have hx : 0 < lx := by omega
  obtain ⟨a, b, h1, h2, h3, h4⟩ := sp_waveVector ly lx 1 hy hx one_pos (gridFrame ly lx A θ m 0)
  simp only [mul_one, Nat.cast_one, div_one] at h1 h2 h3 h4
  refine ⟨b, ?_, h1⟩
  have hy' : (ly : ℝ) ≠ 0 := by exact_mod_cast hy.ne'
  have hx' : (lx : ℝ) ≠ 0 := by exact_mod_cast hx.ne'
  have hn2 : ¬ ((lx : ℤ) ∣ -(m : ℤ) - m) := by
    rintro ⟨c, hc⟩
    have c1 : c < 0 := by
      by_contra h
      push Not at h
      have : (0 : ℤ) ≤ lx * c := by positivity
      omega
    have c2 : (lx : ℤ) * c ≤ lx * (-1) := by
      apply mul_le_mul_of_nonneg_left (by omega) (by omega)
    omega
  have hpos : 0 < amplitude ly lx (gridFrame ly lx A θ m 0) ((0 : ℤ) : ℝ) ((m : ℤ) : ℝ) := by
    rw [sp_amplitude_grid ly lx hy hx, norm_pos_iff, if_pos (by simp), if_pos (by simp), if_neg hn2, mul_zero, add_zero]
    have : (A : ℂ) ≠ 0 := by exact_mod_cast hA
    have hy'' : (ly : ℂ) ≠ 0 := by exact_mod_cast hy.ne'
    have hx'' : (lx : ℂ) ≠ 0 := by exact_mod_cast hx.ne'
    exact mul_ne_zero (mul_ne_zero (div_ne_zero this two_ne_zero) hy'') (mul_ne_zero (Complex.exp_ne_zero _) hx'')
  have hb := lt_of_lt_of_le hpos (h4 0 m)
  rw [sp_amplitude_grid ly lx hy hx, norm_pos_iff] at hb
  have hdvd : ((lx : ℤ) ∣ m - b) ∨ ((lx : ℤ) ∣ -m - b) := by
    by_contra hc
    push Not at hc
    rw [if_neg hc.1, if_neg hc.2] at hb
    simp at hb
  have key : ∀ d : ℤ, (lx : ℤ) ∣ d → -(lx : ℤ) < d → d < lx → d = 0 := by
    rintro d ⟨c, rfl⟩ k1 k2
    have c1 : c < 1 := by
      by_contra h
      push Not at h
      have : (lx : ℤ) * 1 ≤ lx * c := mul_le_mul_of_nonneg_left h (by omega)
      omega
    have c2 : -1 < c := by
      by_contra h
      push Not at h
      have : (lx : ℤ) * c ≤ lx * (-1) := mul_le_mul_of_nonneg_left h (by omega)
      omega
    have : c = 0 := by omega
    rw [this, mul_zero]
  rcases hdvd with h | h
  · left
    have := key _ h (by omega) (by omega)
    omega
  · right
    have := key _ h (by omega) (by omega)
    omega

/-- A grid with `m` periods in a window of even width: the wave vector is `m` (`sur = 1`). -/
theorem C88_grid_partial (ly lx : ℕ) (hy : 0 < ly) (hxe : lx % 2 = 0) (A θ : ℝ) (hA : A ≠ 0) (m : ℕ) (hm : 0 < m)
    (hm2 : 2 * m < lx) : waveVector ly lx 1 (gridFrame ly lx A θ m 0) = m := by
  obtain ⟨b, hb, h⟩ := sp_grid_found ly lx hy A θ hA m hm hm2
  rw [h, hxe]
  rcases hb with rfl | rfl <;> simp

/-- With an odd width, the wave vector of a grid with `m` periods is wrong by one half. -/
theorem C88_grid_odd_fails (ly lx : ℕ) (hy : 0 < ly) (hxo : lx % 2 = 1) (A θ : ℝ) (hA : A ≠ 0) (m : ℕ) (hm : 0 < m)
    (hm2 : 2 * m < lx) : |waveVector ly lx 1 (gridFrame ly lx A θ m 0) - m| = 1 / 2 := by
  obtain ⟨b, hb, h⟩ := sp_grid_found ly lx hy A θ hA m hm hm2
  have hm' : (1 : ℝ) ≤ m := by exact_mod_cast hm
  rw [h, hxo]
  rcases hb with rfl | rfl
  · have : |(((m : ℤ) : ℝ)) - ((1 : ℕ) : ℝ) / 2| = m - 1 / 2 := by
      rw [abs_of_pos (by push_cast; linarith)]; push_cast; ring
    rw [this, show (m : ℝ) - 1 / 2 - m = -(1 / 2) by ring, abs_neg, abs_of_pos (by norm_num)]
  · have : |(((-(m : ℤ) : ℤ) : ℝ)) - ((1 : ℕ) : ℝ) / 2| = m + 1 / 2 := by
      rw [abs_of_neg (by push_cast; linarith)]; push_cast; ring
    rw [this, show (m : ℝ) + 1 / 2 - m = 1 / 2 by ring, abs_of_pos (by norm_num)]

example : waveVector 650 164 1 (gridFrame 650 164 1 0 (40 : ℕ) 0) = (40 : ℕ) :=
  C88_grid_partial 650 164 (by norm_num) (by norm_num) 1 0 one_ne_zero 40 (by norm_num) (by norm_num)

example : phase (40 : ℕ) 4 650 164 1 (fun i j => gridFrame 650 164 1 0 (40 : ℕ) 0 i j + 7)
    = phase (40 : ℕ) 4 650 164 1 (gridFrame 650 164 1 0 (40 : ℕ) 0) :=
  (C88_light_partial 650 164 (by norm_num) (by norm_num) (by norm_num) 40 (by norm_num) (by norm_num) 4 7 1 _).2

/-- Non-vacuity: the default window of the code is odd in the width and even in the height. -/
example : (640 - 475) % 2 = 1 ∧ (700 - 50) % 2 = 0 ∧ 2 * 40 < 640 - 475 ∧ (640 - 475) * 16 % 2 = 0 := by decide

end Verif
