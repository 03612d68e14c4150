import Verif.Model.TomoBlocks
import Mathlib.Algebra.BigOperators.Group.List.Basic
import Mathlib.Tactic.Ring
import Mathlib.Tactic.Linarith

/-!
# C69: the reconstruction does not depend on the blocks
-/

namespace Verif
open TomoBlocks

theorem blockSizes_sum (n c : Nat) (sizes : List Nat) (h : blockSizes n c = .ok sizes) : sizes.sum = n := by
  unfold blockSizes at h
  by_cases hn : n = 0
  · rw [if_pos hn] at h
    cases h
    simp [hn]
  · rw [if_neg hn] at h
    by_cases hc : c = 0
    · rw [if_pos hc] at h; cases h
    · rw [if_neg hc] at h
      cases h
      rw [List.sum_append, List.sum_replicate_nat]
      have := Nat.div_add_mod n c
      by_cases hm : n % c = 0
      · rw [if_pos hm]; simp only [List.sum_nil]; rw [hm] at this; linarith [Nat.mul_comm c (n / c)]
      · rw [if_neg hm]; simp only [List.sum_cons, List.sum_nil]; linarith [Nat.mul_comm c (n / c)]

theorem mapBlocks_zipWith {α β : Type} (g : α → α → β) (sizes : List Nat) : ∀ (x y : List α), sizes.sum = x.length →
    y.length = x.length → mapBlocks (List.zipWith g) sizes x y = List.zipWith g x y := by
  induction sizes with
  | nil =>
    intro x y hx hy
    have hx0 : x = [] := List.eq_nil_of_length_eq_zero hx.symm
    subst hx0
    simp [mapBlocks, cut]
  | cons s ss ih =>
    intro x y hx hy
    rw [List.sum_cons] at hx
    have h := ih (x.drop s) (y.drop s) (by rw [List.length_drop]; omega) (by rw [List.length_drop, List.length_drop]; omega)
    unfold mapBlocks at h ⊢
    rw [cut, cut, List.zipWith_cons_cons, List.flatten_cons, h]
    conv_rhs => rw [← List.take_append_drop s x, ← List.take_append_drop s y]
    rw [List.zipWith_append]
    rw [List.length_take, List.length_take, hy]

/-- **C69** (blocks): with at least as many voxels as processors and some memory, or with a size of blocks given by the user,
the value of each voxel is the one interpolated at its own position, at its place: it does not depend on the number of
processors, on the memory and on the size of the blocks. -/
theorem C69_blocks_partial {α β : Type} (g : α → α → β) (chunks : Option Nat) (k available itemsize : Nat) (x y : List α)
    (hxy : y.length = x.length)
    (hc : (∃ c, chunks = some c ∧ 0 < c) ∨ (chunks = none ∧ 0 < k ∧ k ≤ x.length ∧ 0 < itemsize ∧ 6 * itemsize ≤ available)) :
    values (List.zipWith g) chunks (some k) available itemsize x y = .ok (List.zipWith g x y) := by
  have hpos : ∃ c, chunkSize chunks x.length (some k) available itemsize = .ok c ∧ 0 < c := by
    rcases hc with ⟨c, rfl, h⟩ | ⟨rfl, hk, hkn, hi, ha⟩
    · exact ⟨c, rfl, h⟩
    · have h1 : 0 < x.length / k := Nat.div_pos hkn hk
      have h2 : 0 < maxArraySize available itemsize / 6 := by
        apply Nat.div_pos _ (by norm_num)
        unfold maxArraySize
        rw [Nat.le_div_iff_mul_le hi]
        exact ha
      simp only [chunkSize, Nat.pos_iff_ne_zero.1 hk, if_false]
      by_cases h : x.length / k > maxArraySize available itemsize / 6
      · exact ⟨_, by rw [if_pos h], h2⟩
      · exact ⟨_, by rw [if_neg h], h1⟩
  obtain ⟨c, e, hcpos⟩ := hpos
  have hb : ∃ sizes, blockSizes x.length c = .ok sizes := by
    unfold blockSizes
    by_cases hn : x.length = 0
    · exact ⟨_, if_pos hn⟩
    · rw [if_neg hn, if_neg (Nat.pos_iff_ne_zero.1 hcpos)]
      exact ⟨_, rfl⟩
  obtain ⟨sizes, hs⟩ := hb
  simp only [values, e, hs]
  rw [mapBlocks_zipWith g sizes x y (blockSizes_sum _ _ _ hs) hxy]

/-- **C69** (memory): the blocks chosen by the program are such that six blocks of each size fit in the available memory, and
there is at least one block for each processor. -/
theorem C69_blocks_memory (n k available itemsize c : Nat) (sizes : List Nat) (hi : 0 < itemsize) (hk : 0 < k)
    (h : chunkSize none n (some k) available itemsize = .ok c) (hb : blockSizes n c = .ok sizes) (hn : 0 < n) :
    (∀ s ∈ sizes, 6 * s * itemsize ≤ available) ∧ k ≤ sizes.length := by
  simp only [chunkSize, Nat.pos_iff_ne_zero.1 hk, if_false] at h
  have hmax : c ≤ maxArraySize available itemsize / 6 ∧ c ≤ n / k := by
    by_cases hgt : n / k > maxArraySize available itemsize / 6
    · rw [if_pos hgt] at h; cases h; omega
    · rw [if_neg hgt] at h; cases h; omega
  have hc : 6 * c * itemsize ≤ available := by
    have h1 : c * 6 ≤ maxArraySize available itemsize := (Nat.le_div_iff_mul_le (by norm_num)).1 hmax.1
    have h2 : c * 6 * itemsize ≤ available := (Nat.le_div_iff_mul_le hi).1 h1
    linarith [Nat.mul_comm c 6]
  unfold blockSizes at hb
  rw [if_neg (by omega)] at hb
  by_cases hc0 : c = 0
  · rw [if_pos hc0] at hb; cases hb
  · rw [if_neg hc0] at hb
    cases hb
    have hcp : 0 < c := Nat.pos_of_ne_zero hc0
    constructor
    · intro s hs
      have hle : s ≤ c := by
        rcases List.mem_append.1 hs with h1 | h1
        · exact (List.eq_of_mem_replicate h1).le
        · by_cases hm : n % c = 0
          · rw [if_pos hm] at h1; cases h1
          · rw [if_neg hm] at h1
            rw [List.mem_singleton.1 h1]
            exact (Nat.mod_lt n hcp).le
      exact le_trans (Nat.mul_le_mul_right _ (Nat.mul_le_mul_left _ hle)) hc
    · have h1 : c * k ≤ n := (Nat.le_div_iff_mul_le hk).1 hmax.2
      have h2 : k ≤ n / c := by rw [Nat.le_div_iff_mul_le hcp]; linarith [Nat.mul_comm c k]
      rw [List.length_append, List.length_replicate]
      omega

/-- **C69**, what is false: with less voxels than processors (or without enough memory for six values), the size of the blocks is
0 and the reconstruction fails. -/
theorem C69_blocks_fails {α β : Type} (interp : List α → List α → List β) (k available itemsize : Nat) (x y : List α)
    (hx : x ≠ []) (hk : 0 < k) (h : x.length < k ∨ available < 6 * itemsize) :
    values interp none (some k) available itemsize x y = .error .zeroDivisionError := by
  have hn : x.length ≠ 0 := fun h => hx (List.eq_nil_of_length_eq_zero h)
  have e : chunkSize none x.length (some k) available itemsize = .ok 0 := by
    simp only [chunkSize, Nat.pos_iff_ne_zero.1 hk, if_false]
    by_cases hgt : x.length / k > maxArraySize available itemsize / 6
    · rw [if_pos hgt]
      rcases h with h | h
      · rw [Nat.div_eq_of_lt h] at hgt; omega
      · unfold maxArraySize
        rw [Nat.div_div_eq_div_mul, Nat.div_eq_of_lt (by linarith [Nat.mul_comm itemsize 6])]
    · rw [if_neg hgt]
      rcases h with h | h
      · rw [Nat.div_eq_of_lt h]
      · have : maxArraySize available itemsize / 6 = 0 := by
          unfold maxArraySize
          rw [Nat.div_div_eq_div_mul, Nat.div_eq_of_lt (by linarith [Nat.mul_comm itemsize 6])]
        rw [this] at hgt
        have h0 : x.length / k = 0 := Nat.eq_zero_of_not_pos hgt
        rw [h0]
  simp only [values, e, blockSizes, hn, if_false, if_true]

/-- Seven voxels and three processors: blocks of two voxels and one of one. -/
example : chunkSize none 7 (some 3) 1000 8 = .ok 2 ∧ blockSizes 7 2 = .ok [2, 2, 2, 1] ∧
    values (List.zipWith (· + ·)) none (some 3) 1000 8 [1, 2, 3, 4, 5, 6, 7] [10, 20, 30, 40, 50, 60, 70] =
      .ok [11, 22, 33, 44, 55, 66, 77] ∧
    values (List.zipWith (· + ·)) none (some 8) 1000 8 [1, 2, 3, 4, 5, 6, 7] [10, 20, 30, 40, 50, 60, 70] =
      .error .zeroDivisionError := by
  decide +kernel

end Verif
