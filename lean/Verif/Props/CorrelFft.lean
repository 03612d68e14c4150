import Verif.Model.CorrelFft
import Verif.Lemmas.Dft
import Verif.Props.Correl
import Verif.Props.Spectrum
import Mathlib.Algebra.Order.BigOperators.Ring.Finset

/-!
# Correlations with FFT (C65, C66)
-/

namespace Verif
open Complex Finset Verif.Dft Verif.CorrelFft Verif.PivGrid

/-! ## Specification -/

/-- Mean of an image. -/
noncomputable def imMean (n0 n1 : ℕ) (im : ℕ → ℕ → ℝ) : ℝ := (∑ i ∈ range n0, ∑ j ∈ range n1, im i j) / (n0 * n1)

/-- The image without its mean. -/
noncomputable def fluct (n0 n1 : ℕ) (im : ℕ → ℕ → ℝ) (i j : ℕ) : ℝ := im i j - imMean n0 n1 im

/-- Circular cross-correlation of the images without their mean, for the displacement `(dx, dy)`. -/
noncomputable def circCorrel (n0 n1 : ℕ) (im0 im1 : ℕ → ℕ → ℝ) (dx dy : ℤ) : ℝ :=
  ∑ a ∈ range n0, ∑ b ∈ range n1,
    fluct n0 n1 im0 a b * fluct n0 n1 im1 (((a : ℤ) + dy) % n0).toNat (((b : ℤ) + dx) % n1).toNat

/-- Sum of the squares of the image without its mean. -/
noncomputable def sumSq (n0 n1 : ℕ) (im : ℕ → ℕ → ℝ) : ℝ := ∑ a ∈ range n0, ∑ b ∈ range n1, fluct n0 n1 im a b ^ 2

/-- `im1` is `im0` translated (circularly) by `(dx, dy)`. -/
def TranslatedBy (n0 n1 : ℕ) (dx dy : ℤ) (im0 im1 : ℕ → ℕ → ℝ) : Prop :=
  ∀ a b, a < n0 → b < n1 → im1 (((a : ℤ) + dy) % n0).toNat (((b : ℤ) + dx) % n1).toNat = im0 a b

/-! ## Lemmas -/

theorem zero00_eq (n0 n1 : ℕ) (h0 : 0 < n0) (h1 : 0 < n1) (im : ℕ → ℕ → ℝ) (l k : ℕ) (hl : l < n0) (hk : k < n1) :
    zero00 (fft2 n0 n1 (toC im)) l k = fft2 n0 n1 (toC (fluct n0 n1 im)) l k := by
  have c0 : (n0 : ℂ) ≠ 0 := by exact_mod_cast h0.ne'
  have c1 : (n1 : ℂ) ≠ 0 := by exact_mod_cast h1.ne'
  have hm : ((imMean n0 n1 im : ℝ) : ℂ) * (n0 * n1) = ∑ i ∈ range n0, ∑ j ∈ range n1, toC im i j := by
    unfold imMean toC
    push_cast
    field_simp
  have := fft2_sub_mean n0 n1 h0 h1 (toC im) ((imMean n0 n1 im : ℝ) : ℂ) hm l k hl hk
  unfold zero00
  rw [← this]
  congr 1
  funext i j
  unfold toC fluct
  push_cast
  rfl

theorem ifft2_congr (ny nx : ℕ) (S T : ℕ → ℕ → ℂ) (h : ∀ l k, l < ny → k < nx → S l k = T l k) (i j : ℕ) :
    ifft2 ny nx S i j = ifft2 ny nx T i j := by
  unfold ifft2
  congr 1
  apply sum_congr rfl
  intro l hl
  apply sum_congr rfl
  intro k hk
  rw [h l k (mem_range.1 hl) (mem_range.1 hk)]

theorem toNat_emod (n : ℕ) (hn : 0 < n) (a : ℕ) (d : ℤ) :
    (a + (d % (n : ℤ)).toNat) % n = (((a : ℤ) + d) % n).toNat := by
  have hpos : (0 : ℤ) < n := by exact_mod_cast hn
  have h1 : 0 ≤ d % (n : ℤ) := Int.emod_nonneg _ hpos.ne'
  have h2 : 0 ≤ ((a : ℤ) + d) % n := Int.emod_nonneg _ hpos.ne'
  zify
  rw [Int.toNat_of_nonneg h1, Int.toNat_of_nonneg h2, Int.add_emod_emod]

/-- The correlation of numpy, before the shift. -/
theorem npRaw_complex (n0 n1 : ℕ) (h0 : 0 < n0) (h1 : 0 < n1) (im0 im1 : ℕ → ℕ → ℝ) (dx dy : ℤ) :
    ifft2 n0 n1 (conjMul (zero00 (fft2 n0 n1 (toC im0))) (zero00 (fft2 n0 n1 (toC im1)))) (dy % (n0 : ℤ)).toNat
      (dx % (n1 : ℤ)).toNat = ((circCorrel n0 n1 im0 im1 dx dy : ℝ) : ℂ) := by
  rw [ifft2_congr n0 n1 _ (fun l k => (starRingEnd ℂ) (fft2 n0 n1 (toC (fluct n0 n1 im0)) l k) *
    fft2 n0 n1 (toC (fluct n0 n1 im1)) l k)
    (fun l k hl hk => by unfold conjMul; rw [zero00_eq n0 n1 h0 h1 im0 l k hl hk, zero00_eq n0 n1 h0 h1 im1 l k hl hk]),
    ifft2_conj_mul n0 n1 h0 h1]
  unfold circCorrel toC
  push_cast
  apply sum_congr rfl
  intro a _
  apply sum_congr rfl
  intro b _
  rw [Complex.conj_ofReal, toNat_emod n0 h0, toNat_emod n1 h1]

/-- The position of a displacement in the result. -/
theorem shifted_value (junk : ℕ → ℕ → ℝ) (a : Img ℝ) (i j : ℕ) (hi : i < a.ny) (hj : j < a.nx) :
    (Correl.likeFftshift junk a).get i j =
      a.get (((Correl.fftCls a.ny a.nx none 0 0).displacement j i).2 % (a.ny : ℤ)).toNat
        (((Correl.fftCls a.ny a.nx none 0 0).displacement j i).1 % (a.nx : ℤ)).toNat :=
  C38_displacement junk a i j hi hj none 0 0

/-! ## C65 -/

/-- C65, numpy: the value at the position of the displacement `(dx, dy)` is the circular cross-correlation for this
displacement of the images without their mean. -/
theorem C65_numpy (junk : ℕ → ℕ → ℝ) (n0 n1 : ℕ) (im0 im1 : ℕ → ℕ → ℝ) (i j : ℕ) (hi : i < n0) (hj : j < n1) :
    let d := (Correl.fftCls n0 n1 none 0 0).displacement j i
    (npCorrel junk n0 n1 im0 im1).1.get i j = circCorrel n0 n1 im0 im1 d.1 d.2 := by
  simp only
  unfold npCorrel
  simp only
  rw [shifted_value junk (npRaw n0 n1 im0 im1) i j hi hj]
  unfold npRaw npFft
  simp only
  rw [npRaw_complex n0 n1 (by omega) (by omega)]
  exact Complex.ofReal_re _

theorem toC_conj (im : ℕ → ℕ → ℝ) (i j : ℕ) : (starRingEnd ℂ) (toC im i j) = toC im i j := Complex.conj_ofReal _

/-- The Hermitian array built from the first columns of a product of transforms is the whole product. -/
theorem hermitian_product (n0 n1 : ℕ) (h0 : 0 < n0) (h1 : 0 < n1) (im0 im1 : ℕ → ℕ → ℝ) (l k : ℕ) (hl : l < n0)
    (hk : k < n1) :
    hermitian n0 n1 (conjMul (fftwFft n0 n1 im0) (fftwFft n0 n1 im1)) l k
      = conjMul (fft2 n0 n1 (toC (fluct n0 n1 im0))) (fft2 n0 n1 (toC (fluct n0 n1 im1))) l k := by
  unfold hermitian
  split
  · unfold conjMul fftwFft
    rw [zero00_eq n0 n1 h0 h1 im0 l k hl hk, zero00_eq n0 n1 h0 h1 im1 l k hl hk]
  · rename_i hc
    unfold nk at hc
    have hm : (n0 - l) % n0 < n0 := Nat.mod_lt _ h0
    have hk' : n1 - k < n1 := by omega
    unfold conjMul fftwFft
    rw [zero00_eq n0 n1 h0 h1 im0 _ _ hm hk', zero00_eq n0 n1 h0 h1 im1 _ _ hm hk', map_mul,
      fft2_hermitian n0 n1 h0 h1 (toC (fluct n0 n1 im0)) (toC_conj _) l k hl hk.le,
      fft2_hermitian n0 n1 h0 h1 (toC (fluct n0 n1 im1)) (toC_conj _) l k hl hk.le]

/-- C65, fftw: the same values multiplied by the number of pixels (the inverse transform is not normalised). -/
theorem C65_fftw (junk : ℕ → ℕ → ℝ) (n0 n1 : ℕ) (im0 im1 : ℕ → ℕ → ℝ) (i j : ℕ) (hi : i < n0) (hj : j < n1) :
    let d := (Correl.fftCls n0 n1 none 0 0).displacement j i
    (fftwCorrel junk n0 n1 im0 im1).1.get i j = ((n1 : ℝ) * n0) * circCorrel n0 n1 im0 im1 d.1 d.2 := by
  have h0 : 0 < n0 := by omega
  have h1 : 0 < n1 := by omega
  have c0 : (n0 : ℂ) ≠ 0 := by exact_mod_cast h0.ne'
  have c1 : (n1 : ℂ) ≠ 0 := by exact_mod_cast h1.ne'
  simp only
  unfold fftwCorrel
  simp only
  rw [shifted_value junk (fftwRaw n0 n1 im0 im1) i j hi hj]
  unfold fftwRaw fftwIfft
  simp only
  generalize ((Correl.fftCls n0 n1 none 0 0).displacement j i).1 = dx
  generalize ((Correl.fftCls n0 n1 none 0 0).displacement j i).2 = dy
  have h := npRaw_complex n0 n1 h0 h1 im0 im1 dx dy
  unfold ifft2 at h
  rw [div_eq_iff (mul_ne_zero c0 c1)] at h
  have h2 : ∑ l ∈ range n0, ∑ k ∈ range n1,
      hermitian n0 n1 (conjMul (fftwFft n0 n1 im0) (fftwFft n0 n1 im1)) l k *
        (e n0 (((dy % (n0 : ℤ)).toNat : ℤ) * l) * e n1 (((dx % (n1 : ℤ)).toNat : ℤ) * k))
      = ((((n1 : ℝ) * n0) * circCorrel n0 n1 im0 im1 dx dy : ℝ) : ℂ) := by
    have h3 : ((((n1 : ℝ) * n0) * circCorrel n0 n1 im0 im1 dx dy : ℝ) : ℂ)
        = ((circCorrel n0 n1 im0 im1 dx dy : ℝ) : ℂ) * (n0 * n1) := by push_cast; ring
    rw [h3, ← h]
    apply sum_congr rfl
    intro l hl
    apply sum_congr rfl
    intro k hk
    rw [hermitian_product n0 n1 h0 h1 im0 im1 l k (mem_range.1 hl) (mem_range.1 hk)]
    unfold conjMul
    rw [zero00_eq n0 n1 h0 h1 im0 l k (mem_range.1 hl) (mem_range.1 hk),
      zero00_eq n0 n1 h0 h1 im1 l k (mem_range.1 hl) (mem_range.1 hk)]
  rw [h2]
  exact Complex.ofReal_re _

/-! ## C66: the norm -/

theorem energy_spatial (n0 n1 : ℕ) (h0 : 0 < n0) (h1 : 0 < n1) (im : ℕ → ℕ → ℝ) :
    ∑ l ∈ range n0, ∑ k ∈ range n1, ‖zero00 (fft2 n0 n1 (toC im)) l k‖ ^ 2 = (n0 * n1) * sumSq n0 n1 im := by
  have h := normSq_fft2 n0 n1 h0 h1 (toC (fluct n0 n1 im))
  have e1 : ∑ l ∈ range n0, ∑ k ∈ range n1, ‖zero00 (fft2 n0 n1 (toC im)) l k‖ ^ 2
      = ∑ l ∈ range n0, ∑ k ∈ range n1, ‖fft2 n0 n1 (toC (fluct n0 n1 im)) l k‖ ^ 2 := by
    apply sum_congr rfl
    intro l hl
    apply sum_congr rfl
    intro k hk
    rw [zero00_eq n0 n1 h0 h1 im l k (mem_range.1 hl) (mem_range.1 hk)]
  rw [e1, h]
  congr 1
  unfold sumSq toC
  apply sum_congr rfl
  intro a _
  apply sum_congr rfl
  intro b _
  rw [Complex.norm_real, Real.norm_eq_abs, sq_abs]

theorem sumSq_nonneg (n0 n1 : ℕ) (im : ℕ → ℕ → ℝ) : 0 ≤ sumSq n0 n1 im :=
  sum_nonneg (fun _ _ => sum_nonneg (fun _ _ => sq_nonneg _))

/-- The norm with numpy is the root of the product of the sums of the squares of the fluctuations. -/
theorem C66_norm_numpy (junk : ℕ → ℕ → ℝ) (n0 n1 : ℕ) (h0 : 0 < n0) (h1 : 0 < n1) (im0 im1 : ℕ → ℕ → ℝ) :
    (npCorrel junk n0 n1 im0 im1).2 = Real.sqrt (sumSq n0 n1 im0 * sumSq n0 n1 im1) := by
  have r0 : (0 : ℝ) < n0 := by exact_mod_cast h0
  have r1 : (0 : ℝ) < n1 := by exact_mod_cast h1
  unfold npCorrel npEnergy npFft
  simp only
  rw [energy_spatial n0 n1 h0 h1, energy_spatial n0 n1 h0 h1]
  have : 4 * ((n0 * n1) * sumSq n0 n1 im0 / 2 / ((n1 : ℝ) * n0) ^ 2) * ((n0 * n1) * sumSq n0 n1 im1 / 2 / ((n1 : ℝ) * n0) ^ 2)
      = (sumSq n0 n1 im0 * sumSq n0 n1 im1) / ((n1 : ℝ) * n0) ^ 2 := by
    field_simp
    ring
  rw [this, Real.sqrt_div (mul_nonneg (sumSq_nonneg _ _ _) (sumSq_nonneg _ _ _)), Real.sqrt_sq (by positivity)]
  field_simp

/-- For an even number of columns, the loop over half of the modes gives the sum over all the modes. -/
theorem half_sum_even (n0 m : ℕ) (h0 : 0 < n0) (hm : 0 < m) (g : ℕ → ℕ → ℝ)
    (hg : ∀ l k, l < n0 → k ≤ 2 * m → g ((n0 - l) % n0) (2 * m - k) = g l k) :
    ∑ l ∈ range n0, (g l 0 + g l (m + 1 - 1) + ∑ k ∈ Ico 1 (m + 1 - 1), 2 * g l k)
      = ∑ l ∈ range n0, ∑ k ∈ range (2 * m), g l k := by
  have hflip : ∀ k, k ≤ 2 * m → ∑ l ∈ range n0, g l (2 * m - k) = ∑ l ∈ range n0, g l k := by
    intro k hk
    rw [← sum_congr rfl (fun l hl => hg l k (mem_range.1 hl) hk)]
    apply Finset.sum_nbij' (fun l => (n0 - l) % n0) (fun l => (n0 - l) % n0)
    · intro l _; exact mem_range.2 (Nat.mod_lt _ h0)
    · intro l _; exact mem_range.2 (Nat.mod_lt _ h0)
    · intro l hl
      have hl' := mem_range.1 hl
      by_cases h : l = 0
      · subst h; simp
      · rw [Nat.mod_eq_of_lt (show n0 - l < n0 by omega), show n0 - (n0 - l) = l by omega, Nat.mod_eq_of_lt hl']
    · intro l hl
      have hl' := mem_range.1 hl
      by_cases h : l = 0
      · subst h; simp
      · rw [Nat.mod_eq_of_lt (show n0 - l < n0 by omega), show n0 - (n0 - l) = l by omega, Nat.mod_eq_of_lt hl']
    · intro l hl
      have hl' := mem_range.1 hl
      have : (n0 - (n0 - l) % n0) % n0 = l := by
        by_cases h : l = 0
        · subst h; simp
        · rw [Nat.mod_eq_of_lt (show n0 - l < n0 by omega), show n0 - (n0 - l) = l by omega, Nat.mod_eq_of_lt hl']
      rw [this]
  simp only [Nat.add_sub_cancel]
  rw [sum_comm (s := range n0) (t := range (2 * m))]
  simp only [sum_add_distrib]
  rw [sum_comm (s := range n0) (t := Ico 1 m)]
  simp only [← mul_sum]
  have hsplit : ∑ k ∈ range (2 * m), ∑ l ∈ range n0, g l k
      = ∑ l ∈ range n0, g l 0 + ∑ k ∈ Ico 1 m, ∑ l ∈ range n0, g l k + ∑ l ∈ range n0, g l m
        + ∑ k ∈ Ico (m + 1) (2 * m), ∑ l ∈ range n0, g l k := by
    rw [range_eq_Ico, ← sum_Ico_consecutive _ (Nat.zero_le 1) (by omega : 1 ≤ 2 * m),
      ← sum_Ico_consecutive _ hm (by omega : m ≤ 2 * m),
      ← sum_Ico_consecutive _ (Nat.le_succ m) (by omega : m + 1 ≤ 2 * m)]
    simp only [Nat.Ico_succ_singleton, sum_singleton]
    ring
  have hback : ∑ k ∈ Ico (m + 1) (2 * m), ∑ l ∈ range n0, g l k = ∑ k ∈ Ico 1 m, ∑ l ∈ range n0, g l k := by
    apply Finset.sum_nbij' (fun k => 2 * m - k) (fun k => 2 * m - k)
    · intro k hk; rw [mem_Ico] at *; omega
    · intro k hk; rw [mem_Ico] at *; omega
    · intro k hk; rw [mem_Ico] at *; omega
    · intro k hk; rw [mem_Ico] at *; omega
    · intro k hk; rw [mem_Ico] at hk; exact (hflip k (by omega)).symm
  rw [hsplit, hback]
  ring

theorem fftw_energy_even (n0 n1 : ℕ) (h0 : 0 < n0) (h1 : 0 < n1) (heven : n1 % 2 = 0) (im : ℕ → ℕ → ℝ) :
    fftwEnergy n0 n1 (fftwFft n0 n1 im) = npEnergy n0 n1 (npFft n0 n1 im) := by
  obtain ⟨m, rfl⟩ : ∃ m, n1 = 2 * m := ⟨n1 / 2, by omega⟩
  unfold fftwEnergy npEnergy halfEnergy fftwFft npFft nk
  have hd : 2 * m / 2 = m := by omega
  rw [hd]
  have hg : ∀ l k, l < n0 → k ≤ 2 * m → ‖zero00 (fft2 n0 (2 * m) (toC im)) ((n0 - l) % n0) ((2 * m - k) % (2 * m))‖ ^ 2
      = ‖zero00 (fft2 n0 (2 * m) (toC im)) l (k % (2 * m))‖ ^ 2 := by
    intro l k hl hk
    have hm1 : (n0 - l) % n0 < n0 := Nat.mod_lt _ h0
    have hm2 : (2 * m - k) % (2 * m) < 2 * m := Nat.mod_lt _ h1
    have hm3 : k % (2 * m) < 2 * m := Nat.mod_lt _ h1
    rw [zero00_eq n0 _ h0 h1 im _ _ hm1 hm2, zero00_eq n0 _ h0 h1 im _ _ hl hm3]
    have hh := fft2_hermitian n0 (2 * m) h0 h1 (toC (fluct n0 (2 * m) im)) (toC_conj _) l (k % (2 * m)) hl hm3.le
    rw [← hh, RCLike.norm_conj]
    by_cases hk0 : k % (2 * m) = 0
    · rw [hk0]
      have e1 : (2 * m - k) % (2 * m) = 0 := by
        rcases Nat.lt_or_eq_of_le hk with h | h
        · have : k = 0 := by rw [Nat.mod_eq_of_lt h] at hk0; exact hk0
          subst this; simp
        · subst h; simp
      rw [e1]
      -- the columns 0 and 2 * m of the transform are equal
      have e2 : ∀ l, fft2 n0 (2 * m) (toC (fluct n0 (2 * m) im)) l (2 * m - 0)
          = fft2 n0 (2 * m) (toC (fluct n0 (2 * m) im)) l 0 := by
        intro l
        unfold fft2
        apply sum_congr rfl; intro i _
        apply sum_congr rfl; intro j _
        congr 2
        rw [Nat.sub_zero, show -((j : ℤ) * ((2 * m : ℕ) : ℤ)) = -((j : ℤ) * ((0 : ℕ) : ℤ)) + (2 * m : ℕ) * (-j) by
          push_cast; ring, e_period _ h1]
      rw [e2]
    · have hlt : k < 2 * m := by
        rcases Nat.lt_or_eq_of_le hk with h | h
        · exact h
        · subst h; simp at hk0
      rw [Nat.mod_eq_of_lt hlt] at hk0 ⊢
      rw [Nat.mod_eq_of_lt (show 2 * m - k < 2 * m by omega)]
  have key := half_sum_even n0 m h0 (by omega) (fun l k => ‖zero00 (fft2 n0 (2 * m) (toC im)) l (k % (2 * m))‖ ^ 2) hg
  have e3 : ∑ l ∈ range n0, ∑ k ∈ range (2 * m), ‖zero00 (fft2 n0 (2 * m) (toC im)) l (k % (2 * m))‖ ^ 2
      = ∑ l ∈ range n0, ∑ k ∈ range (2 * m), ‖zero00 (fft2 n0 (2 * m) (toC im)) l k‖ ^ 2 := by
    apply sum_congr rfl; intro l _
    apply sum_congr rfl; intro k hk
    rw [Nat.mod_eq_of_lt (mem_range.1 hk)]
  have e4 : ∑ l ∈ range n0, (‖zero00 (fft2 n0 (2 * m) (toC im)) l (0 % (2 * m))‖ ^ 2
        + ‖zero00 (fft2 n0 (2 * m) (toC im)) l ((m + 1 - 1) % (2 * m))‖ ^ 2
        + ∑ k ∈ Ico 1 (m + 1 - 1), 2 * ‖zero00 (fft2 n0 (2 * m) (toC im)) l (k % (2 * m))‖ ^ 2)
      = ∑ l ∈ range n0, (‖zero00 (fft2 n0 (2 * m) (toC im)) l 0‖ ^ 2
        + ‖zero00 (fft2 n0 (2 * m) (toC im)) l (m + 1 - 1)‖ ^ 2
        + ∑ k ∈ Ico 1 (m + 1 - 1), 2 * ‖zero00 (fft2 n0 (2 * m) (toC im)) l k‖ ^ 2) := by
    apply sum_congr rfl; intro l _
    rw [Nat.zero_mod, Nat.mod_eq_of_lt (show m + 1 - 1 < 2 * m by omega)]
    congr 1
    apply sum_congr rfl; intro k hk
    rw [mem_Ico] at hk
    rw [Nat.mod_eq_of_lt (show k < 2 * m by omega)]
  rw [← e4, key, e3]
  ring

/-- The norm with fftw for windows with an even number of columns. -/
theorem C66_norm_fftw (junk : ℕ → ℕ → ℝ) (n0 n1 : ℕ) (h0 : 0 < n0) (h1 : 0 < n1) (heven : n1 % 2 = 0)
    (im0 im1 : ℕ → ℕ → ℝ) :
    (fftwCorrel junk n0 n1 im0 im1).2 = ((n1 : ℝ) * n0) * Real.sqrt (sumSq n0 n1 im0 * sumSq n0 n1 im1) := by
  have h := C66_norm_numpy junk n0 n1 h0 h1 im0 im1
  unfold npCorrel at h
  unfold fftwCorrel
  simp only at h ⊢
  rw [fftw_energy_even n0 n1 h0 h1 heven, fftw_energy_even n0 n1 h0 h1 heven, ← h]
  ring

/-- The coefficient is the normalised circular correlation, for both methods. -/
theorem coefficient_eq (junk : ℕ → ℕ → ℝ) (n0 n1 : ℕ) (im0 im1 : ℕ → ℕ → ℝ) (i j : ℕ) (hi : i < n0) (hj : j < n1) :
    let d := (Correl.fftCls n0 n1 none 0 0).displacement j i
    let r := circCorrel n0 n1 im0 im1 d.1 d.2 / Real.sqrt (sumSq n0 n1 im0 * sumSq n0 n1 im1)
    coefficient (npCorrel junk n0 n1 im0 im1) i j = r ∧
    (n1 % 2 = 0 → coefficient (fftwCorrel junk n0 n1 im0 im1) i j = r) := by
  have h0 : 0 < n0 := by omega
  have h1 : 0 < n1 := by omega
  have r0 : (n0 : ℝ) ≠ 0 := by exact_mod_cast h0.ne'
  have r1 : (n1 : ℝ) ≠ 0 := by exact_mod_cast h1.ne'
  simp only
  constructor
  · unfold coefficient
    rw [C66_norm_numpy junk n0 n1 h0 h1, C65_numpy junk n0 n1 im0 im1 i j hi hj]
    split
    · rename_i h; rw [h, div_zero]
    · rfl
  · intro heven
    unfold coefficient
    rw [C66_norm_fftw junk n0 n1 h0 h1 heven, C65_fftw junk n0 n1 im0 im1 i j hi hj]
    split
    · rename_i h
      have : Real.sqrt (sumSq n0 n1 im0 * sumSq n0 n1 im1) = 0 := by
        rcases mul_eq_zero.1 h with h | h
        · exact absurd h (mul_ne_zero r1 r0)
        · exact h
      rw [this, div_zero]
    · rw [mul_div_mul_left _ _ (mul_ne_zero r1 r0)]

/-- A circular translation is a permutation of the pixels. -/
theorem sum_translate (n : ℕ) (hn : 0 < n) (d : ℤ) (g : ℕ → ℝ) :
    ∑ a ∈ range n, g (((a : ℤ) + d) % n).toNat = ∑ a ∈ range n, g a := by
  have hpos : (0 : ℤ) < n := by exact_mod_cast hn
  have key : ∀ d d' : ℤ, d + d' = 0 → ∀ a : ℕ, a < n → ((((((a : ℤ) + d) % n).toNat : ℕ) : ℤ) + d') % n = a := by
    intro d d' h a ha
    rw [Int.toNat_of_nonneg (Int.emod_nonneg _ hpos.ne'), Int.emod_add_emod, add_assoc, h, add_zero]
    exact Int.emod_eq_of_lt (by omega) (by omega)
  apply Finset.sum_nbij' (fun a : ℕ => (((a : ℤ) + d) % n).toNat) (fun a : ℕ => (((a : ℤ) + -d) % n).toNat)
  · intro a _
    rw [mem_range]
    have := Int.emod_lt_of_pos ((a : ℤ) + d) hpos
    have := Int.emod_nonneg ((a : ℤ) + d) hpos.ne'
    omega
  · intro a _
    rw [mem_range]
    have := Int.emod_lt_of_pos ((a : ℤ) + -d) hpos
    have := Int.emod_nonneg ((a : ℤ) + -d) hpos.ne'
    omega
  · intro a ha
    rw [key d (-d) (by ring) a (mem_range.1 ha), Int.toNat_natCast]
  · intro a ha
    rw [key (-d) d (by ring) a (mem_range.1 ha), Int.toNat_natCast]
  · intro a _; rfl

theorem sum_translate2 (n0 n1 : ℕ) (h0 : 0 < n0) (h1 : 0 < n1) (dx dy : ℤ) (g : ℕ → ℕ → ℝ) :
    ∑ a ∈ range n0, ∑ b ∈ range n1, g (((a : ℤ) + dy) % n0).toNat (((b : ℤ) + dx) % n1).toNat
      = ∑ a ∈ range n0, ∑ b ∈ range n1, g a b := by
  rw [sum_translate n0 h0 dy (fun a => ∑ b ∈ range n1, g a (((b : ℤ) + dx) % n1).toNat)]
  apply sum_congr rfl
  intro a _
  exact sum_translate n1 h1 dx (fun b => g a b)

/-- Cauchy-Schwarz for the circular correlation. -/
theorem circCorrel_sq_le (n0 n1 : ℕ) (h0 : 0 < n0) (h1 : 0 < n1) (im0 im1 : ℕ → ℕ → ℝ) (dx dy : ℤ) :
    circCorrel n0 n1 im0 im1 dx dy ^ 2 ≤ sumSq n0 n1 im0 * sumSq n0 n1 im1 := by
  have h := Finset.sum_mul_sq_le_sq_mul_sq (range n0 ×ˢ range n1) (fun p => fluct n0 n1 im0 p.1 p.2)
    (fun p => fluct n0 n1 im1 (((p.1 : ℤ) + dy) % n0).toNat (((p.2 : ℤ) + dx) % n1).toNat)
  simp only [sum_product] at h
  have h2 := sum_translate2 n0 n1 h0 h1 dx dy (fun a b => fluct n0 n1 im1 a b ^ 2)
  rw [h2] at h
  exact h

/-- C66: the correlation coefficient is between -1 and 1, with numpy for all shapes, with fftw for an even number of
columns. -/
theorem C66_bounded_partial (junk : ℕ → ℕ → ℝ) (n0 n1 : ℕ) (im0 im1 : ℕ → ℕ → ℝ) (i j : ℕ) (hi : i < n0) (hj : j < n1) :
    |coefficient (npCorrel junk n0 n1 im0 im1) i j| ≤ 1 ∧
    (n1 % 2 = 0 → |coefficient (fftwCorrel junk n0 n1 im0 im1) i j| ≤ 1) := by
  have h0 : 0 < n0 := by omega
  have h1 : 0 < n1 := by omega
  obtain ⟨e1, e2⟩ := coefficient_eq junk n0 n1 im0 im1 i j hi hj
  have hb : ∀ dx dy, |circCorrel n0 n1 im0 im1 dx dy / Real.sqrt (sumSq n0 n1 im0 * sumSq n0 n1 im1)| ≤ 1 := by
    intro dx dy
    rw [abs_div, abs_of_nonneg (Real.sqrt_nonneg _)]
    apply div_le_one_of_le₀ _ (Real.sqrt_nonneg _)
    exact Real.abs_le_sqrt (circCorrel_sq_le n0 n1 h0 h1 im0 im1 dx dy)
  refine ⟨by rw [e1]; exact hb _ _, fun heven => by rw [e2 heven]; exact hb _ _⟩

theorem mean_translated (n0 n1 : ℕ) (h0 : 0 < n0) (h1 : 0 < n1) (dx dy : ℤ) (im0 im1 : ℕ → ℕ → ℝ)
    (h : TranslatedBy n0 n1 dx dy im0 im1) : imMean n0 n1 im1 = imMean n0 n1 im0 := by
  unfold imMean
  rw [← sum_translate2 n0 n1 h0 h1 dx dy im1]
  congr 1
  apply sum_congr rfl; intro a ha
  apply sum_congr rfl; intro b hb
  exact h a b (mem_range.1 ha) (mem_range.1 hb)

/-- C66: when the second image is the first one translated circularly by `(dx, dy)`, the coefficient at the position of
this displacement is 1 (for an image that is not uniform), so it is a maximum (`C66_bounded_partial`).  Missing for the
full property: fftw with an odd number of columns (`C66_fftw_odd_fails`). -/
theorem C66_translation_partial (junk : ℕ → ℕ → ℝ) (n0 n1 : ℕ) (im0 im1 : ℕ → ℕ → ℝ) (i j : ℕ) (hi : i < n0) (hj : j < n1)
    (ht : TranslatedBy n0 n1 ((Correl.fftCls n0 n1 none 0 0).displacement j i).1
      ((Correl.fftCls n0 n1 none 0 0).displacement j i).2 im0 im1)
    (hnu : ∃ a b a' b', (a < n0 ∧ b < n1) ∧ (a' < n0 ∧ b' < n1) ∧ im0 a b ≠ im0 a' b') :
    coefficient (npCorrel junk n0 n1 im0 im1) i j = 1 ∧
    (n1 % 2 = 0 → coefficient (fftwCorrel junk n0 n1 im0 im1) i j = 1) := by
  have h0 : 0 < n0 := by omega
  have h1 : 0 < n1 := by omega
  obtain ⟨e1, e2⟩ := coefficient_eq junk n0 n1 im0 im1 i j hi hj
  generalize ((Correl.fftCls n0 n1 none 0 0).displacement j i).1 = dx at e1 e2 ht
  generalize ((Correl.fftCls n0 n1 none 0 0).displacement j i).2 = dy at e1 e2 ht
  have hfl : ∀ a b, a < n0 → b < n1 →
      fluct n0 n1 im1 (((a : ℤ) + dy) % n0).toNat (((b : ℤ) + dx) % n1).toNat = fluct n0 n1 im0 a b := by
    intro a b ha hb
    unfold fluct
    rw [mean_translated n0 n1 h0 h1 dx dy im0 im1 ht, ht a b ha hb]
  have hc : circCorrel n0 n1 im0 im1 dx dy = sumSq n0 n1 im0 := by
    unfold circCorrel sumSq
    apply sum_congr rfl; intro a ha
    apply sum_congr rfl; intro b hb
    rw [hfl a b (mem_range.1 ha) (mem_range.1 hb), sq]
  have hs : sumSq n0 n1 im1 = sumSq n0 n1 im0 := by
    unfold sumSq
    rw [← sum_translate2 n0 n1 h0 h1 dx dy (fun a b => fluct n0 n1 im1 a b ^ 2)]
    apply sum_congr rfl; intro a ha
    apply sum_congr rfl; intro b hb
    rw [hfl a b (mem_range.1 ha) (mem_range.1 hb)]
  have hpos : sumSq n0 n1 im0 ≠ 0 := by
    intro hz
    unfold sumSq at hz
    have hz' := (sum_eq_zero_iff_of_nonneg (fun a _ => sum_nonneg (fun b _ => sq_nonneg (fluct n0 n1 im0 a b)))).1 hz
    have hall : ∀ a b, a < n0 → b < n1 → im0 a b = imMean n0 n1 im0 := by
      intro a b ha hb
      have h2 := hz' a (mem_range.2 ha)
      have h3 := (sum_eq_zero_iff_of_nonneg (fun b _ => sq_nonneg (fluct n0 n1 im0 a b))).1 h2 b (mem_range.2 hb)
      have h4 := pow_eq_zero_iff (two_ne_zero) |>.1 h3
      unfold fluct at h4
      linarith
    obtain ⟨a, b, a', b', h2, h3, h4⟩ := hnu
    exact h4 ((hall a b h2.1 h2.2).trans (hall a' b' h3.1 h3.2).symm)
  have hr : circCorrel n0 n1 im0 im1 dx dy / Real.sqrt (sumSq n0 n1 im0 * sumSq n0 n1 im1) = 1 := by
    rw [hc, hs, Real.sqrt_mul_self (sumSq_nonneg n0 n1 im0), div_self hpos]
  refine ⟨by rw [e1]; exact hr, fun heven => by rw [e2 heven]; exact hr⟩

/-- Non-vacuity: a bright pixel that moves from column 1 to column 2. -/
example : TranslatedBy 4 4 ((Correl.fftCls 4 4 none 0 0).displacement 0 1).1 ((Correl.fftCls 4 4 none 0 0).displacement 0 1).2
    (fun a b => if a = 2 ∧ b = 1 then 1 else 0) (fun a b => if a = 2 ∧ b = 2 then 1 else 0) := by
  have e : (Correl.fftCls 4 4 none 0 0).displacement 0 1 = (1, 0) := by decide
  rw [e]
  intro a b ha hb
  have h1 : (((a : ℤ) + 0) % (4 : ℕ)).toNat = a := by omega
  have h2 : (((b : ℤ) + 1) % (4 : ℕ)).toNat = 2 ↔ b = 1 := by omega
  simp only [h1, h2]

/-- A bright pixel in an image with one row. -/
def onePixel : ℕ → ℕ → ℝ := fun _ b => if b = 0 then 1 else 0

theorem fft2_onePixel (n1 : ℕ) (h1 : 0 < n1) (k : ℕ) : fft2 1 n1 (toC onePixel) 0 k = 1 := by
  unfold fft2 toC onePixel
  rw [sum_range_one, sum_eq_single_of_mem 0 (mem_range.2 h1)]
  · simp [e_zero]
  · intro b _ hb; simp [hb]

/-- C66 fails with fftw for all odd numbers of columns: the energy is underestimated (the modes of the last column are
counted once), and the correlation of an image with itself is larger than 1. -/
theorem C66_fftw_odd_fails (m : ℕ) (hm : 1 ≤ m) (junk : ℕ → ℕ → ℝ) :
    1 < coefficient (fftwCorrel junk 1 (2 * m + 1) onePixel onePixel) 0 (m - 1) := by
  have hj : m - 1 < 2 * m + 1 := by omega
  have hd : (Correl.fftCls 1 (2 * m + 1) none 0 0).displacement ((m - 1 : ℕ) : ℤ) ((0 : ℕ) : ℤ) = (0, -1) := by
    unfold Correl.fftCls Correl.Cls.displacement Correl.centre
    simp only [Prod.mk.injEq]
    omega
  have h1 : 0 < 2 * m + 1 := by omega
  have hmR : (1 : ℝ) ≤ m := by exact_mod_cast hm
  -- the energy computed by the loop
  have hz : ∀ k, 0 < k → k < 2 * m + 1 → ‖zero00 (fft2 1 (2 * m + 1) (toC onePixel)) 0 k‖ ^ 2 = 1 := by
    intro k hk _
    unfold zero00
    rw [if_neg (by omega), fft2_onePixel _ h1]
    simp
  have hz0 : ‖zero00 (fft2 1 (2 * m + 1) (toC onePixel)) 0 0‖ ^ 2 = 0 := by simp [zero00]
  have hen : fftwEnergy 1 (2 * m + 1) (fftwFft 1 (2 * m + 1) onePixel)
      = 0.5 / (((2 * m + 1 : ℕ) : ℝ) * (1 : ℕ)) ^ 2 * (2 * m - 1) := by
    unfold fftwEnergy halfEnergy fftwFft nk
    have hd : (2 * m + 1) / 2 = m := by omega
    rw [hd, sum_range_one, Nat.add_sub_cancel, hz0, hz m (by omega) (by omega)]
    congr 1
    have : ∑ k ∈ Ico 1 m, 2 * ‖zero00 (fft2 1 (2 * m + 1) (toC onePixel)) 0 k‖ ^ 2 = ∑ k ∈ Ico 1 m, (2 : ℝ) := by
      apply sum_congr rfl
      intro k hk
      rw [mem_Ico] at hk
      rw [hz k (by omega) (by omega), mul_one]
    rw [this, sum_const, Nat.card_Ico, nsmul_eq_mul, Nat.cast_sub hm]
    push_cast
    ring
  -- the value of the correlation
  have hss : ((2 * m + 1 : ℕ) : ℝ) * sumSq 1 (2 * m + 1) onePixel = 2 * m := by
    have := energy_spatial 1 (2 * m + 1) Nat.one_pos h1 onePixel
    rw [sum_range_one, Finset.sum_range_succ', hz0] at this
    rw [Nat.cast_one, one_mul] at this
    rw [← this]
    have h2 : ∑ k ∈ range (2 * m), ‖zero00 (fft2 1 (2 * m + 1) (toC onePixel)) 0 (k + 1)‖ ^ 2 = ∑ k ∈ range (2 * m), (1 : ℝ) := by
      apply sum_congr rfl
      intro k hk
      rw [mem_range] at hk
      exact hz (k + 1) (by omega) (by omega)
    rw [h2]
    simp
  have hcc : circCorrel 1 (2 * m + 1) onePixel onePixel 0 (-1) = sumSq 1 (2 * m + 1) onePixel := by
    unfold circCorrel sumSq
    rw [sum_range_one, sum_range_one]
    apply sum_congr rfl
    intro b hb
    rw [mem_range] at hb
    have e1 : ((((0 : ℕ) : ℤ) + -1) % ((1 : ℕ) : ℤ)).toNat = 0 := by simp
    have e2 : (((b : ℤ) + 0) % ((2 * m + 1 : ℕ) : ℤ)).toNat = b := by
      rw [add_zero, Int.emod_eq_of_lt (by omega) (by omega), Int.toNat_natCast]
    rw [e1, e2, sq]
  have hval := C65_fftw junk 1 (2 * m + 1) onePixel onePixel 0 (m - 1) Nat.one_pos hj
  simp only [hd, hcc] at hval
  have hn : (fftwCorrel junk 1 (2 * m + 1) onePixel onePixel).2 = 2 * m - 1 := by
    unfold fftwCorrel
    simp only
    rw [hen]
    have hN : (0 : ℝ) < ((2 * m + 1 : ℕ) : ℝ) := by exact_mod_cast h1
    have : 4 * (0.5 / (((2 * m + 1 : ℕ) : ℝ) * (1 : ℕ)) ^ 2 * (2 * (m : ℝ) - 1)) *
        (0.5 / (((2 * m + 1 : ℕ) : ℝ) * (1 : ℕ)) ^ 2 * (2 * m - 1))
        = ((2 * (m : ℝ) - 1) / (((2 * m + 1 : ℕ) : ℝ) * (1 : ℕ)) ^ 2) ^ 2 := by
      ring
    rw [this, Real.sqrt_sq (by apply div_nonneg (by linarith) (by positivity))]
    field_simp
  unfold coefficient
  rw [hn, if_neg (by linarith), hval, Nat.cast_one, mul_one, hss, lt_div_iff₀ (by linarith)]
  linarith

end Verif
