import Verif.Model.Splitters
import Verif.Spec.Splitters

namespace Verif.Splitters
open Verif

theorem rangeLen_exact (start step : Int) (n : Nat) (h : step ≠ 0) :
    rangeLen start (start + n * step) step = n := by
  unfold rangeLen
  rcases Int.lt_or_gt_of_ne h with hneg | hpos
  · rw [if_neg (by omega), if_pos hneg]
    by_cases hn : n = 0
    · subst hn; simp
    · have : (n:Int) * step < 0 := Int.mul_neg_of_pos_of_neg (by omega) hneg
      rw [if_pos (by omega)]
      have e : (start - (start + n * step) - 1) / -step = n - 1 := by
        have : start - (start + n * step) - 1 = (-step - 1) + (n-1) * (-step) := by
          rw [Int.sub_mul, Int.one_mul]; simp only [Int.mul_neg]; omega
        rw [this, Int.add_mul_ediv_right _ _ (by omega), Int.ediv_eq_zero_of_lt (by omega) (by omega)]
        omega
      rw [e]; omega
  · rw [if_pos hpos]
    by_cases hn : n = 0
    · subst hn; simp
    · have : 0 < (n:Int) * step := Int.mul_pos (by omega) hpos
      rw [if_pos (by omega)]
      have e : (start + n * step - start - 1) / step = n - 1 := by
        have : start + n * step - start - 1 = (step - 1) + (n-1) * step := by
          rw [Int.sub_mul, Int.one_mul]; omega
        rw [this, Int.add_mul_ediv_right _ _ (by omega), Int.ediv_eq_zero_of_lt (by omega) (by omega)]
        omega
      rw [e]; omega

/-- A part given by `start`, a number of elements and a step denotes this number of elements. -/
theorem pyRange_part (start step : Int) (n : Nat) (h : step ≠ 0) :
    pyRange start (start + n * step) step = (List.range n).map (fun i : Nat => start + i * step) := by
  unfold pyRange; rw [rangeLen_exact _ _ _ h]

theorem numElems_length (approx rem n : Nat) : (numElemsVsIpart approx rem n).length = n := by
  unfold numElemsVsIpart
  induction rem with
  | zero => simp
  | succ r ih => rw [List.range_succ, List.foldl_append]; simp [ih]

theorem numElems_get (approx rem n : Nat) (i : Nat) (hi : i < n) :
    (numElemsVsIpart approx rem n)[i]? = some (if i < rem then approx + 1 else approx) := by
  unfold numElemsVsIpart
  induction rem with
  | zero => simp [hi]
  | succ r ih =>
    rw [List.range_succ, List.foldl_append]
    simp only [List.foldl_cons, List.foldl_nil, List.getElem?_modify, ih]
    by_cases h1 : r = i
    · subst h1; simp
    · by_cases h2 : i < r
      · have : i < r + 1 := by omega
        simp [h1, h2, this]
      · have : ¬ i < r + 1 := by omega
        simp [h1, h2, this]

theorem numElems_eq (approx rem n : Nat) (h : rem ≤ n) :
    numElemsVsIpart approx rem n = List.replicate rem (approx + 1) ++ List.replicate (n - rem) approx := by
  apply List.ext_getElem?
  intro i
  by_cases hi : i < n
  · rw [numElems_get _ _ _ _ hi, List.getElem?_append, List.length_replicate]
    by_cases h2 : i < rem
    · simp [h2]
    · have : i - rem < n - rem := by omega
      simp [h2, this]
  · rw [List.getElem?_eq_none (by rw [numElems_length]; omega), List.getElem?_eq_none (by simp; omega)]

theorem numElems_sum (approx rem n : Nat) (h : rem ≤ n) :
    (numElemsVsIpart approx rem n).sum = approx * n + rem := by
  rw [numElems_eq _ _ _ h, List.sum_append, List.sum_replicate_nat, List.sum_replicate_nat]
  obtain ⟨k, rfl⟩ := Nat.exists_eq_add_of_le h
  simp only [Nat.add_sub_cancel_left, Nat.mul_add, Nat.mul_comm]
  omega

theorem numElems_balanced (approx rem n : Nat) (h : rem ≤ n) :
    Spec.BalancedSizes (numElemsVsIpart approx rem n) := by
  rw [numElems_eq _ _ _ h]
  unfold Spec.BalancedSizes
  rw [List.pairwise_append]
  refine ⟨?_, ?_, ?_⟩
  · rw [List.pairwise_replicate]; right; omega
  · rw [List.pairwise_replicate]; right; omega
  · intro a ha b hb
    rw [List.mem_replicate] at ha hb; omega

theorem rangesLoop_length (step start : Int) (ns : List Nat) :
    (rangesLoop step start ns).length = ns.length := by
  induction ns generalizing start with
  | nil => rfl
  | cons n ns ih => simp [rangesLoop, ih]

theorem rangesLoop_step (step start : Int) (ns : List Nat) :
    ∀ p ∈ rangesLoop step start ns, p.2.2 = step := by
  induction ns generalizing start with
  | nil => simp [rangesLoop]
  | cons n ns ih =>
    intro p hp
    simp only [rangesLoop, List.mem_cons] at hp
    rcases hp with rfl | hp
    · rfl
    · exact ih _ p hp

theorem rangesLoop_lens (step start : Int) (ns : List Nat) (h : step ≠ 0) :
    (rangesLoop step start ns).map (fun p => (pyRange p.1 p.2.1 p.2.2).length) = ns := by
  induction ns generalizing start with
  | nil => rfl
  | cons n ns ih =>
    simp only [rangesLoop, List.map_cons, ih]
    rw [pyRange_part _ _ _ h]; simp

theorem rangesLoop_glue (step start : Int) (ns : List Nat) (h : step ≠ 0) :
    ((rangesLoop step start ns).map (fun p => pyRange p.1 p.2.1 p.2.2)).flatten
      = (List.range ns.sum).map (fun i : Nat => start + i * step) := by
  induction ns generalizing start with
  | nil => rfl
  | cons n ns ih =>
    simp only [rangesLoop, List.map_cons, List.flatten_cons, ih, List.sum_cons]
    rw [pyRange_part _ _ _ h, List.range_add, List.map_append, List.map_map]
    congr 1
    apply List.map_congr_left
    intro i _
    simp only [Function.comp, Int.natCast_add, Int.add_mul]
    omega

theorem sliceNat_append {α : Type} (l : List α) (a b c : Nat) (h1 : a ≤ b) (h2 : b ≤ c) :
    sliceNat l a b ++ sliceNat l b c = sliceNat l a c := by
  unfold sliceNat
  apply List.ext_getElem?
  intro i
  simp only [List.getElem?_append, List.length_drop, List.length_take, List.getElem?_drop,
    List.getElem?_take]
  split <;> rename_i h
  · rw [if_pos (by omega), if_pos (by omega)]
  · by_cases hl : l.length ≤ a + i
    · rw [List.getElem?_eq_none hl]
      have : l.length ≤ b + (i - (min b l.length - a)) := by omega
      rw [List.getElem?_eq_none this]; simp
    · have e : b + (i - (min b l.length - a)) = a + i := by omega
      rw [e]

theorem sliceNat_length {α : Type} (l : List α) (a b : Nat) (h : b ≤ l.length) :
    (sliceNat l a b).length = b - a := by
  unfold sliceNat; simp; omega

theorem slices_glue {α : Type} (l : List α) (c : Nat → Nat) (hc : ∀ i, c i ≤ c (i+1)) (n : Nat) :
    ((List.range n).map (fun i => sliceNat l (c i) (c (i+1)))).flatten = sliceNat l (c 0) (c n) := by
  induction n with
  | zero => simp [sliceNat]
  | succ n ih =>
    have mono : c 0 ≤ c n := by
      clear ih
      induction n with
      | zero => exact Nat.le_refl _
      | succ n ih => exact Nat.le_trans ih (hc n)
    rw [List.range_succ, List.map_append, List.flatten_append, ih]
    simp only [List.map_cons, List.map_nil, List.flatten_cons, List.flatten_nil, List.append_nil]
    exact sliceNat_append _ _ _ _ mono (hc n)

end Verif.Splitters
