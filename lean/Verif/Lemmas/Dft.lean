import Verif.Model.Dft
import Mathlib.Data.Int.ModEq
import Mathlib.Algebra.BigOperators.Field

/-!
# Discrete Fourier transforms: orthogonality, inversion, Parseval, correlation
-/

namespace Verif.Dft
open Complex Finset

theorem e_zero (n : ℕ) : e n 0 = 1 := by simp [e]

theorem e_add (n : ℕ) (a b : ℤ) : e n (a + b) = e n a * e n b := by
  unfold e
  rw [← Complex.exp_add]
  congr 1
  push_cast
  ring

theorem e_conj (n : ℕ) (a : ℤ) : (starRingEnd ℂ) (e n a) = e n (-a) := by
  unfold e
  rw [← Complex.exp_conj]
  congr 1
  simp only [map_div₀, map_mul, Complex.conj_ofReal, Complex.conj_I, map_ofNat, map_intCast, map_natCast]
  push_cast
  ring

theorem e_pow (n : ℕ) (a : ℤ) (k : ℕ) : e n a ^ k = e n (a * k) := by
  induction k with
  | zero => simp [e_zero]
  | succ k ih =>
    rw [pow_succ, ih, ← e_add]
    congr 1
    push_cast
    ring

theorem e_eq_one (n : ℕ) (hn : 0 < n) (a : ℤ) : e n a = 1 ↔ (n : ℤ) ∣ a := by
  unfold e
  rw [Complex.exp_eq_one_iff]
  have hn' : (n : ℂ) ≠ 0 := by exact_mod_cast hn.ne'
  have hpi : (2 * (Real.pi : ℂ) * I) ≠ 0 := Complex.two_pi_I_ne_zero
  constructor
  · rintro ⟨c, hc⟩
    refine ⟨c, ?_⟩
    have h1 : (2 * (Real.pi : ℂ) * I) * a = (2 * (Real.pi : ℂ) * I) * (n * c) := by
      field_simp at hc
      have := hc
      linear_combination (2 * (Real.pi : ℂ) * I) * hc
    have := mul_left_cancel₀ hpi h1
    exact_mod_cast this
  · rintro ⟨c, rfl⟩
    refine ⟨c, ?_⟩
    push_cast
    field_simp

theorem e_period (n : ℕ) (hn : 0 < n) (a c : ℤ) : e n (a + n * c) = e n a := by
  rw [e_add, (e_eq_one n hn (n * c)).2 ⟨c, rfl⟩, mul_one]

/-- Orthogonality of the exponentials. -/
theorem orth (n : ℕ) (hn : 0 < n) (a : ℤ) :
    ∑ k ∈ range n, e n (a * k) = if (n : ℤ) ∣ a then (n : ℂ) else 0 := by
  have h : ∀ k : ℕ, e n (a * k) = e n a ^ k := fun k => (e_pow n a k).symm
  simp only [h]
  split
  · rename_i hd
    rw [(e_eq_one n hn a).2 hd]; simp
  · rename_i hd
    have h1 : e n a ≠ 1 := fun hc => hd ((e_eq_one n hn a).1 hc)
    have h2 : e n a ^ n = 1 := by
      rw [e_pow, e_eq_one n hn]; exact ⟨a, by ring⟩
    have h3 := mul_geom_sum (e n a) n
    rw [h2, sub_self] at h3
    rcases mul_eq_zero.1 h3 with h4 | h4
    · exact absurd (sub_eq_zero.1 h4) h1
    · exact h4

theorem dvd_sub_iff (n i j : ℕ) (hi : i < n) (hj : j < n) : (n : ℤ) ∣ (i : ℤ) - j ↔ i = j := by
  constructor
  · intro h
    obtain ⟨c, hc⟩ := h
    have h1 : c < 1 := by
      by_contra hcc
      have : (n : ℤ) * 1 ≤ n * c := Int.mul_le_mul_of_nonneg_left (by omega) (by omega)
      omega
    have h2 : -1 < c := by
      by_contra hcc
      have : (n : ℤ) * c ≤ n * (-1) := Int.mul_le_mul_of_nonneg_left (by omega) (by omega)
      omega
    have : c = 0 := by omega
    subst this
    omega
  · rintro rfl; simp

theorem orth2 (n : ℕ) (hn : 0 < n) (i j : ℕ) (hi : i < n) (hj : j < n) :
    ∑ k ∈ range n, e n (((i : ℤ) - j) * k) = if i = j then (n : ℂ) else 0 := by
  rw [orth n hn]
  simp only [dvd_sub_iff n i j hi hj]

/-- Inversion. -/
theorem ifft_fft (n : ℕ) (hn : 0 < n) (s : ℕ → ℂ) (j : ℕ) (hj : j < n) : ifft n (fft n s) j = s j := by
  unfold ifft fft
  have hn' : (n : ℂ) ≠ 0 := by exact_mod_cast hn.ne'
  rw [div_eq_iff hn']
  simp only [sum_mul]
  rw [sum_comm]
  have h : ∀ i ∈ range n, ∑ k ∈ range n, s i * e n (-((i : ℤ) * k)) * e n ((j : ℤ) * k)
      = if j = i then s i * n else 0 := by
    intro i hi
    have : ∀ k ∈ range n, s i * e n (-((i : ℤ) * k)) * e n ((j : ℤ) * k) = s i * e n (((j : ℤ) - i) * k) := by
      intro k _
      rw [mul_assoc, ← e_add]
      congr 2
      ring
    rw [sum_congr rfl this, ← mul_sum, orth2 n hn j i hj (mem_range.1 hi)]
    split <;> simp
  rw [sum_congr rfl h, sum_ite_eq, if_pos (mem_range.2 hj)]

/-- Parseval. -/
theorem parseval (n : ℕ) (hn : 0 < n) (s : ℕ → ℂ) :
    ∑ k ∈ range n, fft n s k * (starRingEnd ℂ) (fft n s k) = n * ∑ j ∈ range n, s j * (starRingEnd ℂ) (s j) := by
  unfold fft
  simp only [map_sum, map_mul, e_conj, sum_mul_sum]
  rw [sum_comm]
  have h1 : ∀ i ∈ range n, ∑ k ∈ range n, ∑ j ∈ range n,
      s i * e n (-((i : ℤ) * k)) * ((starRingEnd ℂ) (s j) * e n (- -((j : ℤ) * k)))
      = n * (s i * (starRingEnd ℂ) (s i)) := by
    intro i hi
    rw [sum_comm]
    have h2 : ∀ j ∈ range n, ∑ k ∈ range n,
        s i * e n (-((i : ℤ) * k)) * ((starRingEnd ℂ) (s j) * e n (- -((j : ℤ) * k)))
        = if i = j then n * (s i * (starRingEnd ℂ) (s i)) else 0 := by
      intro j hj
      have : ∀ k ∈ range n, s i * e n (-((i : ℤ) * k)) * ((starRingEnd ℂ) (s j) * e n (- -((j : ℤ) * k)))
          = (s i * (starRingEnd ℂ) (s j)) * e n (((j : ℤ) - i) * k) := by
        intro k _
        rw [show ((j : ℤ) - i) * k = -((i : ℤ) * k) + - -((j : ℤ) * k) by ring, e_add]
        ring
      rw [sum_congr rfl this, ← mul_sum, orth2 n hn j i (mem_range.1 hj) (mem_range.1 hi)]
      by_cases hij : i = j
      · subst hij; simp; ring
      · rw [if_neg (Ne.symm hij), if_neg hij, mul_zero]
    rw [sum_congr rfl h2, sum_ite_eq, if_pos hi]
  rw [sum_congr rfl h1, mul_sum]

/-- The circular correlation theorem in one dimension. -/
theorem ifft_conj_mul (n : ℕ) (hn : 0 < n) (s t : ℕ → ℂ) (d : ℕ) :
    ifft n (fun k => (starRingEnd ℂ) (fft n s k) * fft n t k) d
      = ∑ j ∈ range n, (starRingEnd ℂ) (s j) * t ((j + d) % n) := by
  unfold ifft fft
  have hn' : (n : ℂ) ≠ 0 := by exact_mod_cast hn.ne'
  rw [div_eq_iff hn']
  simp only [map_sum, map_mul, e_conj, sum_mul_sum, sum_mul]
  rw [sum_comm]
  apply sum_congr rfl
  intro j _
  simp only [mul_sum, sum_mul]
  rw [sum_comm]
  have h2 : ∀ i ∈ range n, ∑ k ∈ range n,
      (starRingEnd ℂ) (s j) * e n (- -((j : ℤ) * k)) * (t i * e n (-((i : ℤ) * k))) * e n ((d : ℤ) * k)
      = if (j + d) % n = i then (starRingEnd ℂ) (s j) * t i * n else 0 := by
    intro i hi
    have : ∀ k ∈ range n,
        (starRingEnd ℂ) (s j) * e n (- -((j : ℤ) * k)) * (t i * e n (-((i : ℤ) * k))) * e n ((d : ℤ) * k)
        = ((starRingEnd ℂ) (s j) * t i) * e n (((j : ℤ) + d - i) * k) := by
      intro k _
      rw [show ((j : ℤ) + d - i) * k = - -((j : ℤ) * k) + (-((i : ℤ) * k)) + (d : ℤ) * k by ring, e_add, e_add]
      ring
    rw [sum_congr rfl this, ← mul_sum, orth n hn]
    have hd : ((n : ℤ) ∣ (j : ℤ) + d - i) ↔ (j + d) % n = i := by
      have hi' := mem_range.1 hi
      rw [← Int.modEq_iff_dvd]
      constructor
      · intro h
        have h2 : ((i : ℕ) : ℤ) % n = ((j + d : ℕ) : ℤ) % n := by push_cast; exact h
        have : i % n = (j + d) % n := by exact_mod_cast h2
        rw [← this, Nat.mod_eq_of_lt hi']
      · intro h
        have : i % n = (j + d) % n := by rw [h, Nat.mod_eq_of_lt hi']
        have h2 : ((i : ℕ) : ℤ) % n = ((j + d : ℕ) : ℤ) % n := by exact_mod_cast this
        push_cast at h2; exact h2
    simp only [hd]
    split <;> simp
  rw [sum_congr rfl h2, sum_ite_eq, if_pos (mem_range.2 (Nat.mod_lt _ hn))]

end Verif.Dft

namespace Verif.Dft
open Complex Finset

/-! ## Two dimensions -/

theorem fft2_eq (ny nx : ℕ) (s : ℕ → ℕ → ℂ) (l k : ℕ) :
    fft2 ny nx s l k = fft ny (fun i => fft nx (s i) k) l := by
  unfold fft2 fft
  apply sum_congr rfl
  intro i _
  rw [sum_mul]
  apply sum_congr rfl
  intro j _
  ring

theorem ifft2_eq (ny nx : ℕ) (S : ℕ → ℕ → ℂ) (i j : ℕ) :
    ifft2 ny nx S i j = ifft ny (fun l => ifft nx (S l) j) i := by
  unfold ifft2 ifft
  rw [← div_div, sum_div, sum_div, sum_div]
  apply sum_congr rfl
  intro l _
  rw [div_right_comm]
  congr 1
  rw [div_mul_eq_mul_div, sum_mul]
  congr 1
  apply sum_congr rfl
  intro k _
  ring

theorem ifft_congr (n : ℕ) (S T : ℕ → ℂ) (h : ∀ k, k < n → S k = T k) (j : ℕ) : ifft n S j = ifft n T j := by
  unfold ifft
  rw [sum_congr rfl (fun k hk => by rw [h k (mem_range.1 hk)])]

theorem ifft2_fft2 (ny nx : ℕ) (hy : 0 < ny) (hx : 0 < nx) (s : ℕ → ℕ → ℂ) (i j : ℕ) (hi : i < ny) (hj : j < nx) :
    ifft2 ny nx (fft2 ny nx s) i j = s i j := by
  rw [ifft2_eq]
  have h : ∀ l, ifft nx (fft2 ny nx s l) j = fft ny (fun i => s i j) l := by
    intro l
    have h1 : fft2 ny nx s l = fun k => ∑ i ∈ range ny, fft nx (s i) k * e ny (-((i : ℤ) * l)) := by
      funext k; rw [fft2_eq]; rfl
    rw [h1]
    unfold ifft
    simp only [sum_mul]
    rw [sum_comm, sum_div]
    unfold fft
    apply sum_congr rfl
    intro i _
    have := ifft_fft nx hx (s i) j hj
    unfold ifft at this
    simp only
    rw [← this, div_mul_eq_mul_div, sum_mul]
    congr 1
    apply sum_congr rfl
    intro k _
    unfold fft
    ring
  simp only [h]
  exact ifft_fft ny hy (fun i => s i j) i hi

/-- Parseval in two dimensions. -/
theorem parseval2 (ny nx : ℕ) (hy : 0 < ny) (hx : 0 < nx) (s : ℕ → ℕ → ℂ) :
    ∑ l ∈ range ny, ∑ k ∈ range nx, fft2 ny nx s l k * (starRingEnd ℂ) (fft2 ny nx s l k)
      = (ny * nx) * ∑ i ∈ range ny, ∑ j ∈ range nx, s i j * (starRingEnd ℂ) (s i j) := by
  simp only [fft2_eq]
  rw [sum_comm]
  have h1 : ∀ k ∈ range nx, ∑ l ∈ range ny, fft ny (fun i => fft nx (s i) k) l *
      (starRingEnd ℂ) (fft ny (fun i => fft nx (s i) k) l)
      = ny * ∑ i ∈ range ny, fft nx (s i) k * (starRingEnd ℂ) (fft nx (s i) k) :=
    fun k _ => parseval ny hy _
  rw [sum_congr rfl h1, ← mul_sum, sum_comm]
  have h2 : ∀ i ∈ range ny, ∑ k ∈ range nx, fft nx (s i) k * (starRingEnd ℂ) (fft nx (s i) k)
      = nx * ∑ j ∈ range nx, s i j * (starRingEnd ℂ) (s i j) := fun i _ => parseval nx hx _
  rw [sum_congr rfl h2, ← mul_sum, mul_assoc]

end Verif.Dft

namespace Verif.Dft
open Complex Finset

theorem fft2_eq' (ny nx : ℕ) (s : ℕ → ℕ → ℂ) (l k : ℕ) :
    fft2 ny nx s l k = fft nx (fun b => fft ny (fun a => s a b) l) k := by
  unfold fft2 fft
  rw [sum_comm]
  apply sum_congr rfl
  intro j _
  rw [sum_mul]
  apply sum_congr rfl
  intro i _
  ring

theorem ifft_sum {ι : Type} (n : ℕ) (I : Finset ι) (S : ι → ℕ → ℂ) (j : ℕ) :
    ifft n (fun k => ∑ a ∈ I, S a k) j = ∑ a ∈ I, ifft n (S a) j := by
  unfold ifft
  rw [← sum_div, sum_comm]
  simp only [sum_mul]

/-- The circular correlation theorem in two dimensions. -/
theorem ifft2_conj_mul (ny nx : ℕ) (hy : 0 < ny) (hx : 0 < nx) (s t : ℕ → ℕ → ℂ) (i j : ℕ) :
    ifft2 ny nx (fun l k => (starRingEnd ℂ) (fft2 ny nx s l k) * fft2 ny nx t l k) i j
      = ∑ a ∈ range ny, ∑ b ∈ range nx, (starRingEnd ℂ) (s a b) * t ((a + i) % ny) ((b + j) % nx) := by
  rw [ifft2_eq]
  have h1 : ∀ l, ifft nx (fun k => (starRingEnd ℂ) (fft2 ny nx s l k) * fft2 ny nx t l k) j
      = ∑ b ∈ range nx, (starRingEnd ℂ) (fft ny (fun a => s a b) l) * fft ny (fun a => t a ((b + j) % nx)) l := by
    intro l
    simp only [fft2_eq']
    exact ifft_conj_mul nx hx (fun b => fft ny (fun a => s a b) l) (fun b => fft ny (fun a => t a b) l) j
  simp only [h1]
  rw [ifft_sum, sum_comm]
  apply sum_congr rfl
  intro b _
  exact ifft_conj_mul ny hy (fun a => s a b) (fun a => t a ((b + j) % nx)) i

theorem fft2_const (ny nx : ℕ) (hy : 0 < ny) (hx : 0 < nx) (c : ℂ) (l k : ℕ) (hl : l < ny) (hk : k < nx) :
    fft2 ny nx (fun _ _ => c) l k = if l = 0 ∧ k = 0 then c * (ny * nx) else 0 := by
  unfold fft2
  have h1 : ∀ n m : ℕ, 0 < n → m < n → ∑ i ∈ range n, e n (-((i : ℤ) * m)) = if m = 0 then (n : ℂ) else 0 := by
    intro n m hn hm
    have := orth2 n hn 0 m hn hm
    have h0 : (if m = 0 then (n : ℂ) else 0) = if 0 = m then (n : ℂ) else 0 := by
      by_cases h : m = 0
      · subst h; rfl
      · rw [if_neg h, if_neg (Ne.symm h)]
    rw [h0, ← this]
    apply sum_congr rfl
    intro i _
    congr 1
    push_cast
    ring
  simp only [← mul_sum, ← sum_mul]
  rw [h1 nx k hx hk, h1 ny l hy hl]
  by_cases h : l = 0 <;> by_cases h' : k = 0 <;> simp [h, h']

/-- Removing the mean is setting the mean mode to zero. -/
theorem fft2_sub_mean (ny nx : ℕ) (hy : 0 < ny) (hx : 0 < nx) (s : ℕ → ℕ → ℂ) (m : ℂ)
    (hm : m * (ny * nx) = ∑ i ∈ range ny, ∑ j ∈ range nx, s i j) (l k : ℕ) (hl : l < ny) (hk : k < nx) :
    fft2 ny nx (fun i j => s i j - m) l k = if l = 0 ∧ k = 0 then 0 else fft2 ny nx s l k := by
  have h1 : fft2 ny nx (fun i j => s i j - m) l k = fft2 ny nx s l k - fft2 ny nx (fun _ _ => m) l k := by
    unfold fft2
    simp only [sub_mul, sum_sub_distrib]
  rw [h1, fft2_const ny nx hy hx m l k hl hk]
  split
  · rename_i h
    obtain ⟨rfl, rfl⟩ := h
    have : fft2 ny nx s 0 0 = ∑ i ∈ range ny, ∑ j ∈ range nx, s i j := by
      unfold fft2; simp [e_zero]
    rw [this, hm, sub_self]
  · rw [sub_zero]

theorem e_flip (n : ℕ) (hn : 0 < n) (a : ℤ) (l : ℕ) (hl : l ≤ n) : e n (-(a * ((n - l : ℕ) : ℤ))) = e n (a * l) := by
  rw [Nat.cast_sub hl, show -(a * ((n : ℤ) - l)) = a * l + n * (-a) by ring, e_period n hn]

/-- Hermitian symmetry of the transform of a real array. -/
theorem fft2_hermitian (ny nx : ℕ) (hy : 0 < ny) (hx : 0 < nx) (s : ℕ → ℕ → ℂ)
    (hs : ∀ i j, (starRingEnd ℂ) (s i j) = s i j) (l k : ℕ) (hl : l < ny) (hk : k ≤ nx) :
    (starRingEnd ℂ) (fft2 ny nx s ((ny - l) % ny) (nx - k)) = fft2 ny nx s l k := by
  unfold fft2
  simp only [map_sum, map_mul, hs, e_conj, neg_neg]
  apply sum_congr rfl
  intro i _
  apply sum_congr rfl
  intro j _
  congr 2
  · by_cases h : l = 0
    · subst h; simp
    · rw [Nat.mod_eq_of_lt (by omega), ← neg_neg ((i : ℤ) * ((ny - l : ℕ) : ℤ)), ← e_conj, e_flip ny hy _ _ hl.le, e_conj]
  · rw [← neg_neg ((j : ℤ) * ((nx - k : ℕ) : ℤ)), ← e_conj, e_flip nx hx _ _ hk, e_conj]

end Verif.Dft
