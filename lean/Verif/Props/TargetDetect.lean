import Verif.Model.TargetDetect
import Verif.Props.Tomo

/-!
# C68, from the image: which points of the image are those of the target
-/

namespace Verif
open Verif.TargetDetect

/-! ## The box -/

/-- A point which is at most `(n + 1) / 2` steps minus one pixel from the origin is in the box. -/
theorem td_inSide {o ds x : ℝ} {n : ℕ} (hds : 0 < ds) (h : |x - o| ≤ ((n : ℝ) + 1) * ds / 2 - 1) : inSide o n ds x = true := by
  have h1 := Int.lt_floor_add_one (((n : ℝ) + 1) * ds / 2)
  have h2 := Int.floor_le (((n : ℝ) + 1) * ds / 2)
  rw [abs_le] at h
  simp only [inSide, Bool.and_eq_true, decide_eq_true_eq]
  constructor <;> linarith [h.1, h.2]

/-- A point which is at `(n + 1) / 2` steps plus one pixel of the origin, or more, is not in the box. -/
theorem td_not_inSide {o ds x : ℝ} {n : ℕ} (h : ((n : ℝ) + 1) * ds / 2 + 1 ≤ |x - o|) : inSide o n ds x = false := by
  have h1 := Int.lt_floor_add_one (((n : ℝ) + 1) * ds / 2)
  have h2 := Int.floor_le (((n : ℝ) + 1) * ds / 2)
  rw [← Bool.not_eq_true]
  simp only [inSide, Bool.and_eq_true, decide_eq_true_eq, not_and, not_le]
  intro h3
  rcases le_abs.mp h with h4 | h4 <;> linarith

/-- The box contains its edges: for a whole number of pixels, the points which are exactly at `(n + 1) / 2` steps of the origin. -/
theorem td_inSide_edge {o x : ℝ} {n ds m : ℕ} (hm : (n + 1) * ds = 2 * m) (h : |x - o| ≤ m) : inSide o n (ds : ℝ) x = true := by
  have hm' : ((n : ℝ) + 1) * ds / 2 = m := by
    have : ((n : ℝ) + 1) * ds = 2 * m := by exact_mod_cast hm
    linarith
  have hf : ⌊((n : ℝ) + 1) * ds / 2⌋ = (m : ℤ) := by rw [hm']; simp
  rw [abs_le] at h
  simp only [inSide, hf, Bool.and_eq_true, decide_eq_true_eq]
  have : ((n : ℝ) + 1) * ds = 2 * m := by linarith
  constructor
  · push_cast; linarith [h.1]
  · push_cast; linarith [h.2]

/-- The points of a grid of `nx` columns and `ny` rows, row by row. -/
def gridOf (nx ny : ℕ) (p : ℕ → ℕ → ℝ × ℝ) : List (ℝ × ℝ) :=
  (List.range ny).flatMap fun j => (List.range nx).map fun i => p i j

theorem td_mem_grid {nx ny : ℕ} {p : ℕ → ℕ → ℝ × ℝ} {q : ℝ × ℝ} (h : q ∈ gridOf nx ny p) : ∃ i < nx, ∃ j < ny, q = p i j := by
  simp only [gridOf, List.mem_flatMap, List.mem_map, List.mem_range] at h
  obtain ⟨j, hj, i, hi, rfl⟩ := h
  exact ⟨i, hi, j, hj, rfl⟩

theorem td_grid_length (nx ny : ℕ) (p : ℕ → ℕ → ℝ × ℝ) : (gridOf nx ny p).length = nx * ny := by
  unfold gridOf
  rw [flat_length (List.range ny) (List.range nx) (fun j i => p i j), List.length_range, List.length_range, Nat.mul_comm]

/-! ## Theorems -/

/-- **C68**, from the image: the detected points are, in any order, those of a target of `nx` columns and `ny` rows centred on the
origin (each at less than half a step and at most at a step minus one pixel of its place), and other points which are at more than
`(nx + 1) / 2` steps and one pixel of the origin horizontally, or `(ny + 1) / 2` vertically.  Then the points of the target are given,
row by row, and the others are not.  The lines have to be at multiples of the step (`C68_detected_order_fails`). -/
theorem C68_image_partial (detector : List (List ℤ) → List (ℝ × ℝ)) (image : List (List ℤ)) (ox oy : ℝ) (nx ny : ℕ) (ds e : ℝ)
    (hnx : 0 < nx) (hny : 0 < ny) (hds : 0 < ds) (he : e ≤ ds - 1) (x0 y0 : ℤ) (p : ℕ → ℕ → ℝ × ℝ) (others pts : List (ℝ × ℝ))
    (hbytes : ∀ row ∈ image, ∀ v ∈ row, 0 ≤ v ∧ v ≤ 255)
    (hpts : detector image = pts) (hperm : pts.Perm (gridOf nx ny p ++ others))
    (hx : ∀ i < nx, ∀ j < ny, |(p i j).1 / ds - ((x0 + i : ℤ) : ℝ)| < 1 / 2)
    (hy : ∀ i < nx, ∀ j < ny, |(p i j).2 / ds - ((y0 + j : ℤ) : ℝ)| < 1 / 2)
    (hpx : ∀ i < nx, ∀ j < ny, |(p i j).1 - (ox + ((i : ℝ) - ((nx : ℝ) - 1) / 2) * ds)| ≤ e)
    (hpy : ∀ i < nx, ∀ j < ny, |(p i j).2 - (oy + ((j : ℝ) - ((ny : ℝ) - 1) / 2) * ds)| ≤ e)
    (hout : ∀ q ∈ others, ((nx : ℝ) + 1) / 2 * ds + 1 ≤ |q.1 - ox| ∨ ((ny : ℝ) + 1) / 2 * ds + 1 ≤ |q.2 - oy|) :
    ∃ l, detectGrid detector image (ox, oy) nx ny ds = .ok l ∧ l.length = nx * ny ∧
      ∀ i < nx, ∀ j < ny, l[j * nx + i]? = some (p i j) := by
  have himage : image.map (fun row => row.map toByte) = image := by
    conv_rhs => rw [← List.map_id image]
    apply List.map_congr_left
    intro row hrow
    conv_rhs => rw [id, ← List.map_id row]
    apply List.map_congr_left
    intro v hv
    have := hbytes row hrow v hv
    simp only [toByte, id]; omega
  have side : ∀ (o c : ℝ) (n i : ℕ), i < n → |c - (o + ((i : ℝ) - ((n : ℝ) - 1) / 2) * ds)| ≤ e → inSide o n ds c = true := by
    intro o c n i hi h
    apply td_inSide hds
    have hi' : (i : ℝ) ≤ (n : ℝ) - 1 := by
      have : (i : ℝ) + 1 ≤ n := by exact_mod_cast hi
      linarith
    have hi0 : (0 : ℝ) ≤ i := Nat.cast_nonneg _
    have h3 : (i : ℝ) * ds ≤ ((n : ℝ) - 1) * ds := mul_le_mul_of_nonneg_right hi' hds.le
    have h4 : 0 ≤ (i : ℝ) * ds := mul_nonneg hi0 hds.le
    rw [abs_le] at h ⊢
    constructor <;> nlinarith [h.1, h.2]
  have hin : ∀ q ∈ gridOf nx ny p, inBox (ox, oy) nx ny ds q = true := by
    intro q hq
    obtain ⟨i, hi, j, hj, rfl⟩ := td_mem_grid hq
    simp only [inBox, Bool.and_eq_true]
    exact ⟨side ox _ nx i hi (hpx i hi j hj), side oy _ ny j hj (hpy i hi j hj)⟩
  have hnot : ∀ q ∈ others, inBox (ox, oy) nx ny ds q = false := by
    intro q hq
    simp only [inBox, Bool.and_eq_false_iff]
    rcases hout q hq with h | h
    · exact Or.inl (td_not_inSide (by linarith))
    · exact Or.inr (td_not_inSide (by linarith))
  have hfilter : (pts.filter (inBox (ox, oy) nx ny ds)).Perm (gridOf nx ny p) := by
    have h1 := hperm.filter (inBox (ox, oy) nx ny ds)
    have h2 : others.filter (inBox (ox, oy) nx ny ds) = [] := List.filter_eq_nil_iff.mpr (fun q hq => by simp [hnot q hq])
    rw [List.filter_append, List.filter_eq_self.mpr hin, h2, List.append_nil] at h1
    exact h1
  obtain ⟨l, hl, hlen, hget⟩ := C68_detected_order_partial nx ny ds x0 y0 p hx hy _ hfilter
  refine ⟨l, ?_, hlen, hget⟩
  have hpos : 0 < (pts.filter (inBox (ox, oy) nx ny ds)).length := by
    rw [hfilter.length_eq, td_grid_length]; exact Nat.mul_pos hnx hny
  have hpne : pts ≠ [] := by rintro rfl; simp at hpos
  have hda : detectAll detector image = .ok pts := by
    unfold detectAll
    rw [himage, hpts]
    cases pts with
    | nil => exact absurd rfl hpne
    | cons a t => rfl
  simp only [detectGrid, hda]
  revert hl hpos
  generalize pts.filter (inBox (ox, oy) nx ny ds) = c
  intro hl hpos
  cases c with
  | nil => simp at hpos
  | cons a t => simp only [hl]

/-- **C68** is false for a target which is larger than the grid which is asked: the box has `(nx + 1) / 2` steps on each side of the
origin and contains its edges, so that the points of the next columns and rows are in it when the target is well centred, and the
number of points is wrong. -/
theorem C68_larger_target_fails (detector : List (List ℤ) → List (ℝ × ℝ)) (image : List (List ℤ)) (ox oy : ℝ) (nx ny ds mx my : ℕ)
    (hds : 0 < ds) (hmx : (nx + 1) * ds = 2 * mx) (hmy : (ny + 1) * ds = 2 * my) (pts : List (ℝ × ℝ))
    (hpts : detector (image.map (fun row => row.map toByte)) = pts)
    (hperm : pts.Perm (gridOf (nx + 2) (ny + 2) (fun i j =>
      (ox + ((i : ℝ) - ((nx : ℝ) + 1) / 2) * ds, oy + ((j : ℝ) - ((ny : ℝ) + 1) / 2) * ds)))) :
    detectGrid detector image (ox, oy) nx ny ds = .error .assertionError := by
  have side : ∀ (o : ℝ) (n m i : ℕ), (n + 1) * ds = 2 * m → i < n + 2 →
      inSide o n (ds : ℝ) (o + ((i : ℝ) - ((n : ℝ) + 1) / 2) * ds) = true := by
    intro o n m i hm hi
    apply td_inSide_edge hm
    have hm' : ((n : ℝ) + 1) * ds = 2 * m := by exact_mod_cast hm
    have hi' : (i : ℝ) ≤ (n : ℝ) + 1 := by exact_mod_cast Nat.lt_succ_iff.mp hi
    have hd : (0 : ℝ) ≤ ds := Nat.cast_nonneg _
    have h3 : (i : ℝ) * ds ≤ ((n : ℝ) + 1) * ds := mul_le_mul_of_nonneg_right hi' hd
    have h4 : 0 ≤ (i : ℝ) * ds := mul_nonneg (Nat.cast_nonneg _) hd
    rw [abs_le]
    constructor <;> nlinarith
  have hin : ∀ q ∈ pts, inBox (ox, oy) nx ny (ds : ℝ) q = true := by
    intro q hq
    obtain ⟨i, hi, j, hj, rfl⟩ := td_mem_grid (hperm.mem_iff.mp hq)
    simp only [inBox, Bool.and_eq_true]
    exact ⟨side ox nx mx i hmx hi, side oy ny my j hmy hj⟩
  have hlen : pts.length = (nx + 2) * (ny + 2) := by rw [hperm.length_eq, td_grid_length]
  have hne : pts.length ≠ nx * ny := by
    rw [hlen]
    have : (nx + 2) * (ny + 2) = nx * ny + 2 * nx + 2 * ny + 4 := by ring
    omega
  have hfil : pts.filter (inBox (ox, oy) nx ny (ds : ℝ)) = pts := List.filter_eq_self.mpr hin
  have hg : Tomo.detectGrid pts nx ny (ds : ℝ) = .error .assertion := by
    unfold Tomo.detectGrid
    simp only [List.length_mergeSort]
    rw [if_pos hne]
  cases hp : pts with
  | nil => rw [hp] at hlen; simp at hlen
  | cons a t =>
    have hda : detectAll detector image = .ok pts := by
      unfold detectAll; rw [hpts, hp]
    simp only [detectGrid, hda, hfil]
    rw [hp] at hg ⊢
    simp only [hg]

/-- **C68**, errors: `ValueError` when the detector finds nothing, `IndexError` when it finds nothing in the box; and what is given is
always made of `nx * ny` detected points of the box. -/
theorem C68_image_points (detector : List (List ℤ) → List (ℝ × ℝ)) (image : List (List ℤ)) (o : ℝ × ℝ) (nx ny : ℕ) (ds : ℝ) :
    (detector (image.map (fun row => row.map toByte)) = [] → detectGrid detector image o nx ny ds = .error .valueError) ∧
    (detector (image.map (fun row => row.map toByte)) ≠ [] →
      (∀ q ∈ detector (image.map (fun row => row.map toByte)),
        ((nx : ℝ) + 1) * ds / 2 + 1 ≤ |q.1 - o.1| ∨ ((ny : ℝ) + 1) * ds / 2 + 1 ≤ |q.2 - o.2|) →
      detectGrid detector image o nx ny ds = .error .indexError) ∧
    (∀ l, detectGrid detector image o nx ny ds = .ok l → l.length = nx * ny ∧ l ≠ [] ∧
      ∀ q ∈ l, q ∈ detector (image.map (fun row => row.map toByte)) ∧ |q.1 - o.1| ≤ ((nx : ℝ) + 1) * ds / 2 + 1 ∧
        |q.2 - o.2| ≤ ((ny : ℝ) + 1) * ds / 2 + 1) := by
  refine ⟨?_, ?_, ?_⟩
  · intro h
    simp only [detectGrid, detectAll, h]
  · intro hne hfar
    have hfil : (detector (image.map (fun row => row.map toByte))).filter (inBox o nx ny ds) = [] := by
      refine List.filter_eq_nil_iff.mpr (fun q hq => ?_)
      rcases hfar q hq with h | h <;> simp [inBox, td_not_inSide h]
    unfold detectGrid detectAll
    revert hne hfil
    generalize detector (image.map (fun row => row.map toByte)) = pts
    intro hne hfil
    cases pts with
    | nil => exact absurd rfl hne
    | cons a t => simp only [hfil]
  · intro l hl
    unfold detectGrid at hl
    cases hd : detectAll detector image with
    | error e => rw [hd] at hl; cases hl
    | ok pts =>
      have hpts : detector (image.map (fun row => row.map toByte)) = pts := by
        unfold detectAll at hd
        split at hd
        · cases hd
        · exact Except.ok.inj hd
      rw [hd] at hl
      simp only at hl
      cases hc : pts.filter (inBox o nx ny ds) with
      | nil => rw [hc] at hl; cases hl
      | cons a t =>
        rw [hc] at hl
        simp only at hl
        cases hg : Tomo.detectGrid (a :: t) nx ny ds with
        | error e => rw [hg] at hl; cases hl
        | ok l' =>
          rw [hg] at hl
          have : l' = l := Except.ok.inj hl
          subst this
          obtain ⟨h1, h2⟩ := C68_count nx ny ds _ _ hg
          refine ⟨h1, ?_, ?_⟩
          · rintro rfl; exact absurd h2.symm.eq_nil (by simp)
          · intro q hq
            have hq' : q ∈ pts.filter (inBox o nx ny ds) := by rw [hc]; exact h2.mem_iff.mp hq
            rw [List.mem_filter] at hq'
            refine ⟨by rw [hpts]; exact hq'.1, ?_, ?_⟩
            · by_contra hcon
              have := td_not_inSide (o := o.1) (ds := ds) (x := q.1) (n := nx) (by linarith)
              simp [inBox, this] at hq'
            · by_contra hcon
              have := td_not_inSide (o := o.2) (ds := ds) (x := q.2) (n := ny) (by linarith)
              simp [inBox, this] at hq'

/-- **C68** is false for images of more than 8 bits (which the documentation excludes, and which are not refused): the intensities are
taken modulo 256, a pixel of intensity 256 is as a black one. -/
theorem C68_bits_fails (detector : List (List ℤ) → List (ℝ × ℝ)) (image : List (List ℤ)) (k : ℤ) (o : ℝ × ℝ) (nx ny : ℕ) (ds : ℝ) :
    detectGrid detector (image.map (fun row => row.map (fun v => v + 256 * k))) o nx ny ds = detectGrid detector image o nx ny ds := by
  have : (image.map (fun row => row.map (fun v => v + 256 * k))).map (fun row => row.map toByte) =
      image.map (fun row => row.map toByte) := by
    rw [List.map_map]
    apply List.map_congr_left
    intro row _
    simp only [Function.comp, List.map_map]
    apply List.map_congr_left
    intro v _
    simp only [Function.comp, toByte]
    omega
  simp only [detectGrid, detectAll, this]

/-! ## Examples -/

/-- Non-vacuity of `C68_image_partial`: three points with a step of 10 pixels around (20, 10), in another order, and a point further. -/
example : ∃ l, detectGrid (fun _ => [(29.5, 10.2), (60, 10), (10.1, 9.8), (20, 10)]) [[0, 255]] (20, 10) 3 1 10 = .ok l ∧
    l[0]? = some ((10.1, 9.8) : ℝ × ℝ) ∧ l[1]? = some ((20, 10) : ℝ × ℝ) ∧ l[2]? = some ((29.5, 10.2) : ℝ × ℝ) := by
  obtain ⟨l, h, -, hl⟩ := C68_image_partial (fun _ => [(29.5, 10.2), (60, 10), (10.1, 9.8), (20, 10)]) [[0, 255]] 20 10 3 1 10 1
    (by omega) (by omega) (by norm_num) (by norm_num) 1 1
    (fun i _ => if i = 0 then (10.1, 9.8) else if i = 1 then (20, 10) else (29.5, 10.2)) [(60, 10)] _
    (by intro row hr v hv; simp only [List.mem_singleton] at hr; subst hr; simp at hv; omega) rfl
    (by
      simp only [gridOf, List.range_succ, List.range_zero, List.nil_append, List.flatMap_append, List.flatMap_cons, List.flatMap_nil,
        List.append_nil, List.map_append, List.map_cons, List.map_nil, List.cons_append]
      norm_num
      exact List.perm_append_comm (l₁ := [_, _]) (l₂ := [_, _]))
    (by intro i hi j hj; interval_cases i <;> interval_cases j <;> norm_num [abs_lt])
    (by intro i hi j hj; interval_cases i <;> interval_cases j <;> norm_num [abs_lt])
    (by intro i hi j hj; interval_cases i <;> interval_cases j <;> norm_num [abs_le])
    (by intro i hi j hj; interval_cases i <;> interval_cases j <;> norm_num [abs_le])
    (by intro q hq; simp only [List.mem_singleton] at hq; subst hq; left; norm_num [le_abs])
  refine ⟨l, h, ?_, ?_, ?_⟩
  · simpa using hl 0 (by omega) 0 (by omega)
  · simpa using hl 1 (by omega) 0 (by omega)
  · simpa using hl 2 (by omega) 0 (by omega)

/-- Non-vacuity of `C68_larger_target_fails`: the central point of a target of 3 × 3 points with a step of 10 pixels. -/
example : detectGrid (fun _ => gridOf 3 3 (fun i j =>
      (20 + ((i : ℝ) - (((1 : ℕ) : ℝ) + 1) / 2) * ((10 : ℕ) : ℝ), 20 + ((j : ℝ) - (((1 : ℕ) : ℝ) + 1) / 2) * ((10 : ℕ) : ℝ))))
    [[0, 255]] (20, 20) 1 1 ((10 : ℕ) : ℝ) = .error .assertionError :=
  C68_larger_target_fails _ _ 20 20 1 1 10 10 10 (by omega) (by omega) (by omega) _ rfl (List.Perm.refl _)

/-- Non-vacuity of `C68_image_points`: a point which is far from the target. -/
example : detectGrid (fun _ => [(60, 10)]) [[0, 255]] (20, 10) 3 1 10 = .error .indexError := by
  refine (C68_image_points (fun _ => [(60, 10)]) [[0, 255]] (20, 10) 3 1 10).2.1 (by simp) ?_
  intro q hq
  simp only [List.mem_singleton] at hq
  subst hq
  left
  norm_num

end Verif
