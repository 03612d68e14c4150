import Verif.Model.TomoPlot
import Mathlib.Tactic.Linarith
import Mathlib.Tactic.NormNum
import Mathlib.Algebra.Order.Field.Basic

/-!
# C124: the display of a reconstruction in three dimensions
-/

namespace Verif
open Verif.TomoPlot

/-! ## Specification -/

/-- The voxels whose intensities are above the threshold, with their positions, in order. -/
def brightVoxels (grid : List (ℚ × ℚ × ℚ)) (l : List ℚ) (threshold : ℚ) : List ((ℚ × ℚ × ℚ) × ℚ) :=
  (grid.zip l).filter fun p => decide (threshold < p.2)

/-- The intensity `m` is the largest one. -/
def IsLargest (l : List ℚ) (m : ℚ) : Prop := m ∈ l ∧ ∀ v ∈ l, v ≤ m

/-! ## Lemmas -/

namespace TomoPlot

theorem foldl_max (l : List ℚ) : ∀ a : ℚ, (l.foldl max a = a ∨ l.foldl max a ∈ l) ∧ a ≤ l.foldl max a ∧ ∀ v ∈ l, v ≤ l.foldl max a := by
  induction l with
  | nil => intro a; exact ⟨.inl rfl, le_refl _, fun _ h => by cases h⟩
  | cons b l ih =>
    intro a
    obtain ⟨h1, h2, h3⟩ := ih (max a b)
    rw [List.foldl_cons]
    refine ⟨?_, (le_max_left _ _).trans h2, ?_⟩
    · rcases h1 with h1 | h1
      · rcases max_choice a b with h | h
        · exact .inl (h1.trans h)
        · exact .inr (by rw [h1, h]; exact List.mem_cons_self)
      · exact .inr (List.mem_cons_of_mem _ h1)
    · intro v hv
      rcases List.mem_cons.1 hv with rfl | hv
      · exact (le_max_right _ _).trans h2
      · exact h3 v hv

theorem maxOf_largest (l : List ℚ) (hne : l ≠ []) : ∃ m, maxOf l = .ok m ∧ IsLargest l m := by
  cases l with
  | nil => exact absurd rfl hne
  | cons a l =>
    obtain ⟨h1, h2, h3⟩ := foldl_max l a
    refine ⟨_, rfl, ?_, ?_⟩
    · rcases h1 with h | h
      · rw [h]; exact List.mem_cons_self
      · exact List.mem_cons_of_mem _ h
    · intro v hv
      rcases List.mem_cons.1 hv with rfl | hv
      · exact h2
      · exact h3 v hv

theorem markers_eq (m t : ℚ) : ∀ (grid : List (ℚ × ℚ × ℚ)) (l : List ℚ),
    markers m (selected grid (l.map fun v => decide (t < v))) (selected l (l.map fun v => decide (t < v))) =
      (brightVoxels grid l t).map fun p => ⟨p.1, ratio p.2 m, (ratio p.2 m).map (· * 5)⟩ := by
  intro grid l
  induction l generalizing grid with
  | nil => cases grid <;> rfl
  | cons v l ih =>
    cases grid with
    | nil => rfl
    | cons g grid =>
      have h := ih grid
      unfold brightVoxels at *
      rw [List.zip_cons_cons, List.filter_cons]
      by_cases hv : t < v
      · simp only [List.map_cons, selected, hv, decide_true, if_true, markers, h]
      · simp only [List.map_cons, selected, hv, decide_false, Bool.false_eq_true, if_false, h]

end TomoPlot

open TomoPlot

/-! ## Theorems -/

/-- **C124**: for intensities of numpy and a threshold which is not negative, there is one marker for each voxel above the threshold, at the
position of the voxel, in order, and no other one; its grey is the ratio between the intensity and the largest one, in `]0, 1]`, and its
size is 5 times its grey.  Missing: negative thresholds, and arrays of dask (`C124_plot_dask_fails`). -/
theorem C124_plot_partial (grid : List (ℚ × ℚ × ℚ)) (l : List ℚ) (hne : l ≠ []) (hlen : grid.length = l.length) (threshold : ℚ)
    (ht : 0 ≤ threshold) :
    ∃ m ms, IsLargest l m ∧ plot3d grid (.numpy l) threshold = .ok ms ∧
      ms = (brightVoxels grid l threshold).map (fun p => ⟨p.1, some (p.2 / m), some (p.2 / m * 5)⟩) ∧
      ∀ mk ∈ ms, ∃ g, mk.grey = some g ∧ 0 < g ∧ g ≤ 1 := by
  obtain ⟨m, hm, hl⟩ := maxOf_largest l hne
  have hpos : ∀ p ∈ brightVoxels grid l threshold, 0 < p.2 ∧ p.2 ≤ m := by
    intro p hp
    obtain ⟨h1, h2⟩ := List.mem_filter.1 hp
    have h3 : p.2 ∈ l := (List.of_mem_zip (a := p.1) (b := p.2) h1).2
    exact ⟨lt_of_le_of_lt ht (by simpa using h2), hl.2 _ h3⟩
  have e : plot3d grid (.numpy l) threshold = .ok ((brightVoxels grid l threshold).map
      fun p => ⟨p.1, some (p.2 / m), some (p.2 / m * 5)⟩) := by
    unfold plot3d
    simp only [hm, List.length_map, hlen, ne_eq, not_true_eq_false, if_false, markers_eq]
    congr 1
    apply List.map_congr_left
    intro p hp
    obtain ⟨h1, h2⟩ := hpos p hp
    have : m ≠ 0 := by linarith
    simp [ratio, this]
  refine ⟨m, _, hl, e, rfl, ?_⟩
  intro mk hmk
  obtain ⟨p, hp, rfl⟩ := List.mem_map.1 hmk
  obtain ⟨h1, h2⟩ := hpos p hp
  have hm0 : 0 < m := by linarith
  exact ⟨p.2 / m, rfl, div_pos h1 hm0, by rw [div_le_iff₀ hm0, one_mul]; exact h2⟩

/-- **C124** is false of intensities which are in an array of dask: nothing is displayed. -/
theorem C124_plot_dask_fails (grid : List (ℚ × ℚ × ℚ)) (l : List ℚ) (threshold : ℚ) : plot3d grid (.dask l) threshold = .error .valueError := rfl

/-- **C124** is false of a negative threshold when the largest intensity is zero (all the voxels are dark): all the markers have a grey and
a size which are not numbers. -/
theorem C124_plot_dark_fails (grid : List (ℚ × ℚ × ℚ)) (l : List ℚ) (hlen : grid.length = l.length) (threshold : ℚ) (hl : IsLargest l 0) :
    plot3d grid (.numpy l) threshold = .ok ((brightVoxels grid l threshold).map fun p => ⟨p.1, none, none⟩) := by
  have hne : l ≠ [] := by
    rintro rfl
    exact absurd hl.1 (by simp)
  obtain ⟨m, hm, hl'⟩ := maxOf_largest l hne
  have h0 : m = 0 := le_antisymm (hl.2 m hl'.1) (hl'.2 0 hl.1)
  subst h0
  unfold plot3d
  simp only [hm, List.length_map, hlen, ne_eq, not_true_eq_false, if_false, markers_eq]
  rfl

/-- **C124**: intensities which are not those of the grid (a file of another reconstruction) are refused. -/
theorem C124_plot_sizes (grid : List (ℚ × ℚ × ℚ)) (l : List ℚ) (hne : l ≠ []) (hlen : grid.length ≠ l.length) (threshold : ℚ) :
    plot3d grid (.numpy l) threshold = .error .indexError := by
  obtain ⟨m, hm, -⟩ := maxOf_largest l hne
  unfold plot3d
  simp only [hm, List.length_map, ne_eq, hlen, not_false_eq_true, if_true]

/-! ## Examples -/

/-- Non-vacuity of `C124_plot_partial`. -/
example : plot3d [(0, 0, 0), (1, 0, 0), (2, 0, 0)] (.numpy [1, 4, 2]) 1 =
    .ok [⟨(1, 0, 0), some 1, some 5⟩, ⟨(2, 0, 0), some (1 / 2), some (5 / 2)⟩] := by decide +kernel

/-- Non-vacuity of `C124_plot_dark_fails`. -/
example : IsLargest [0, 0] 0 ∧ (brightVoxels [(0, 0, 0), (1, 0, 0)] [0, 0] (-1)).length = 2 :=
  ⟨⟨by simp, by simp⟩, by decide +kernel⟩

end Verif
