import Verif.Lemmas.Splitters

/-!
# C01, C02: the splitters are balanced partitions
-/

namespace Verif
open Splitters

/-- Adequacy of `pyRange` with respect to the meaning of a Python range: the elements are exactly the
`start + i * step` that are strictly before `stop` in the direction of the step. -/
theorem mem_pyRange_iff (start stop step x : Int) (h : step ≠ 0) :
    x ∈ pyRange start stop step ↔
      ∃ i : Nat, x = start + i * step ∧ (0 < step → x < stop) ∧ (step < 0 → stop < x) := by
  unfold pyRange rangeLen
  rw [List.mem_map]
  constructor
  · rintro ⟨i, hi, rfl⟩
    rw [List.mem_range] at hi
    refine ⟨i, rfl, ?_, ?_⟩
    · intro hp
      rw [if_pos hp] at hi
      split at hi
      · have h1 : (i : Int) ≤ (stop - start - 1) / step := by omega
        have h2 : (i : Int) * step ≤ stop - start - 1 := (Int.le_ediv_iff_mul_le hp).1 h1
        omega
      · omega
    · intro hn
      rw [if_neg (by omega), if_pos hn] at hi
      split at hi
      · have h1 : (i : Int) ≤ (start - stop - 1) / -step := by omega
        have h2 : (i : Int) * -step ≤ start - stop - 1 := (Int.le_ediv_iff_mul_le (by omega)).1 h1
        rw [Int.mul_neg] at h2; omega
      · omega
  · rintro ⟨i, rfl, h1, h2⟩
    refine ⟨i, ?_, rfl⟩
    rw [List.mem_range]
    rcases Int.lt_or_gt_of_ne h with hneg | hpos
    · have hx := h2 hneg
      have hm : (i : Int) * step ≤ 0 := Int.mul_nonpos_of_nonneg_of_nonpos (by omega) (by omega)
      rw [if_neg (by omega), if_pos hneg, if_pos (by omega)]
      have : (i : Int) ≤ (start - stop - 1) / -step :=
        (Int.le_ediv_iff_mul_le (by omega)).2 (by rw [Int.mul_neg]; omega)
      omega
    · have hx := h1 hpos
      have hm : 0 ≤ (i : Int) * step := Int.mul_nonneg (by omega) (by omega)
      rw [if_pos hpos, if_pos (by omega)]
      have : (i : Int) ≤ (stop - start - 1) / step :=
        (Int.le_ediv_iff_mul_le hpos).2 (by omega)
      omega

/-- The list of Python values denoted by a `(start, stop, step)` triple. -/
def rangeOf (p : Int × Int × Int) : List Int := pyRange p.1 p.2.1 p.2.2

/-- **C01.** `split_range` returns `n` triples with the given step whose ranges form a balanced partition
of the original range (larger parts first, so empty parts come last). -/
theorem C01_split_range_balanced_partition (start stop step : Int) (n : Nat) (hs : step ≠ 0) (hn : 1 ≤ n) :
    ∃ parts, splitRange start stop step n = .ok parts ∧
      (∀ p ∈ parts, p.2.2 = step) ∧
      Spec.IsBalancedPartition (parts.map rangeOf) (pyRange start stop step) n := by
  have hr : rangeLen start stop step % n ≤ n := Nat.le_of_lt (Nat.mod_lt _ (by omega))
  have hsum := numElems_sum (rangeLen start stop step / n) (rangeLen start stop step % n) n hr
  have hdm : rangeLen start stop step / n * n + rangeLen start stop step % n = rangeLen start stop step := by
    rw [Nat.mul_comm]; exact Nat.div_add_mod _ _
  refine ⟨rangesLoop step start (numElemsVsIpart (rangeLen start stop step / n)
    (rangeLen start stop step % n) n), ?_, rangesLoop_step _ _ _, ?_, ?_, ?_⟩
  · unfold splitRange
    have h1 : n ≠ 0 := by omega
    simp [hs, h1, hsum, hdm]
  · rw [List.length_map, rangesLoop_length, numElems_length]
  · have := rangesLoop_glue step start (numElemsVsIpart (rangeLen start stop step / n)
      (rangeLen start stop step % n) n) hs
    rw [hsum, hdm] at this
    exact this
  · have := rangesLoop_lens step start (numElemsVsIpart (rangeLen start stop step / n)
      (rangeLen start stop step % n) n) hs
    rw [List.map_map]
    show Spec.BalancedSizes ((rangesLoop step start _).map (fun p => (pyRange p.1 p.2.1 p.2.2).length))
    rw [this]
    exact numElems_balanced _ _ _ hr

/-- C01, the two rejected inputs. -/
theorem C01_split_range_errors (start stop step : Int) (n : Nat) :
    splitRange start stop 0 n = .error .valueError ∧
    (step ≠ 0 → splitRange start stop step 0 = .error .zeroDivisionError) := by
  constructor
  · simp [splitRange]
  · intro h; simp [splitRange, h]

/-- In a balanced list of sizes, nothing non-empty follows an empty part. -/
theorem C01_empty_parts_last (sizes : List Nat) (h : Spec.BalancedSizes sizes) (i j : Nat)
    (hij : i < j) (hj : j < sizes.length) (h0 : sizes[i] = 0) : sizes[j] = 0 := by
  have := (List.pairwise_iff_getElem.1 h) i j (by omega) hj hij
  omega

-- non-vacuity: a descending range of 7 elements in 3 parts
example : splitRange 20 6 (-2) 3 = .ok [(20, 14, -2), (14, 10, -2), (10, 6, -2)] := by decide
example : pyRange 20 6 (-2) = [20, 18, 16, 14, 12, 10, 8] := by decide

/-- **C02.** `split_list` of a non-empty sequence: balanced partition in `min n len` parts, all
non-empty. -/
theorem C02_split_list_balanced_partition {α : Type} (l : List α) (n : Nat) (hl : l ≠ []) (hn : 1 ≤ n) :
    ∃ parts, splitList l n = .ok parts ∧
      Spec.IsBalancedPartition parts l (min n l.length) ∧ ∀ p ∈ parts, p ≠ [] := by
  have hlen : 0 < l.length := List.length_pos_iff.2 hl
  obtain ⟨q, hq⟩ : ∃ q, q = min n l.length := ⟨_, rfl⟩
  have hq0 : 0 < q := by omega
  have hq1 : q ≤ l.length := by omega
  obtain ⟨k, hk⟩ : ∃ k, k = l.length / q := ⟨_, rfl⟩
  obtain ⟨m, hm⟩ : ∃ m, m = l.length % q := ⟨_, rfl⟩
  have hkm : q * k + m = l.length := by rw [hk, hm]; exact Nat.div_add_mod _ _
  have hmq : m < q := by rw [hm]; exact Nat.mod_lt _ hq0
  have hk0 : 0 < k := by rw [hk]; exact Nat.div_pos hq1 hq0
  let c : Nat → Nat := fun i => i * k + min i m
  have hcs : ∀ i, c (i+1) = c i + (k + if i < m then 1 else 0) := by
    intro i; simp only [c, Nat.add_mul]; split <;> omega
  have hcq : c q = l.length := by simp only [c]; omega
  have hcle : ∀ i, i ≤ q → c i ≤ l.length := by
    intro i hi
    rw [← hcq]
    obtain ⟨d, rfl⟩ := Nat.exists_eq_add_of_le hi
    clear hi
    generalize hd : i + d = s
    have : ∀ d, c i ≤ c (i + d) := by
      intro d
      induction d with
      | zero => exact Nat.le_refl _
      | succ d ih => rw [← Nat.add_assoc, hcs]; omega
    rw [← hd]; exact this d
  have hpart : ∀ i, i < q → (sliceNat l (c i) (c (i+1))).length = k + if i < m then 1 else 0 := by
    intro i hi
    rw [sliceNat_length _ _ _ (hcle _ (by omega)), hcs]; omega
  refine ⟨(List.range q).map (fun i => sliceNat l (c i) (c (i+1))), ?_, ⟨?_, ?_, ?_⟩, ?_⟩
  · unfold splitList
    have h1 : l.isEmpty = false := by simp [hl]
    simp only [h1, Bool.false_eq_true, if_false, ← hq, ← hk, ← hm]
    rw [if_neg (by omega)]
  · simp [← hq]
  · rw [slices_glue l c (fun i => by rw [hcs]; omega), hcq]
    simp [c, sliceNat]
  · unfold Spec.BalancedSizes
    rw [List.map_map, List.pairwise_map]
    have : (List.range q).Pairwise (fun a b => a < b ∧ b < q) := by
      rw [List.pairwise_iff_getElem]
      intro i j hi hj hij
      have hj' : j < q := by simpa using hj
      simp only [List.getElem_range]
      omega
    refine this.imp ?_
    intro a b hab
    simp only [Function.comp]
    rw [hpart a (by omega), hpart b (by omega)]
    split <;> split <;> omega
  · intro p hp
    rw [List.mem_map] at hp
    obtain ⟨i, hi, rfl⟩ := hp
    rw [List.mem_range] at hi
    rw [← List.length_pos_iff, hpart i hi]; omega

/-- C02, the empty sequence gives `n` empty parts. -/
theorem C02_split_list_empty {α : Type} (n : Nat) :
    splitList ([] : List α) n = .ok (List.replicate n []) := by
  simp only [splitList, List.isEmpty_nil, if_true]
  congr 1
  apply List.ext_getElem? ; intro i
  by_cases h : i < n <;> simp [h]

example : splitList [1, 2, 3, 4, 5, 6, 7, 8, 9, 10, 11] 4 = .ok [[1, 2, 3], [4, 5, 6], [7, 8, 9], [10, 11]] := by
  decide

end Verif
