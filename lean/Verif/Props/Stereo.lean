import Verif.Model.Stereo
import Verif.Props.Calibration

/-!
# Stereo reconstruction (C54, C67)
-/

namespace Verif
open Verif.Calib

/-! ## C54: intersections and common grid -/

/-- The point `v` is on the optical path of the pixel. -/
def OnPath (L : Lines) (ix iy : ℝ) (v : V3) : Prop := ∃ p u t, L ix iy = some (p, u) ∧ v = p.add (u.smul t)

/-- C54: the intersection of an optical path with a plane is in the plane and on the path, and it is the only such point. -/
theorem C54_intersection (L : Lines) (ix iy : ℝ) (e : ℝ × ℝ × ℝ × ℝ) (v : V3) (h : intersect L ix iy e = some v) :
    InPlane e v ∧ OnPath L ix iy v ∧ ∀ w, InPlane e w → OnPath L ix iy w → w = v := by
  unfold intersect at h
  cases hL : L ix iy with
  | none => rw [hL] at h; exact absurd h (by simp)
  | some pu =>
    obtain ⟨p, u⟩ := pu
    rw [hL] at h
    simp only at h
    split at h
    · exact absurd h (by simp)
    · rename_i hden
      simp only [Option.some.injEq] at h
      subst h
      refine ⟨?_, ⟨p, u, _, hL, rfl⟩, ?_⟩
      · simp only [InPlane, V3.add, V3.smul]
        field_simp
        ring
      · rintro w hw ⟨p', u', t, hL', hwt⟩
        rw [hL] at hL'
        simp only [Option.some.injEq, Prod.mk.injEq] at hL'
        obtain ⟨rfl, rfl⟩ := hL'
        have ht : t = -(e.1 * p.x + e.2.1 * p.y + e.2.2.1 * p.z + e.2.2.2) / (e.1 * u.x + e.2.1 * u.y + e.2.2.1 * u.z) := by
          rw [eq_div_iff hden]
          rw [hwt] at hw
          simp only [InPlane, V3.add, V3.smul] at hw
          linear_combination hw
        rw [hwt, ht]

/-- C54: the intersection exists when the path is not parallel to the plane. -/
theorem C54_intersection_exists (L : Lines) (ix iy : ℝ) (e : ℝ × ℝ × ℝ × ℝ) (p u : V3) (hL : L ix iy = some (p, u))
    (hpar : e.1 * u.x + e.2.1 * u.y + e.2.2.1 * u.z ≠ 0) : ∃ v, intersect L ix iy e = some v := by
  unfold intersect
  rw [hL]
  simp only
  rw [if_neg hpar]
  exact ⟨_, rfl⟩

/-- Non-vacuity: the vertical path at (1, 2) and the plane z = 3. -/
example : intersect (fun _ _ => some (⟨1, 2, 0⟩, ⟨0, 0, 1⟩)) 0 0 (0, 0, 1, -3) = some ⟨1, 2, 3⟩ := by
  simp [intersect, V3.add, V3.smul]

theorem minList_spec : ∀ (l : List ℝ) (m : ℝ), minList l = some m → m ∈ l ∧ ∀ a ∈ l, m ≤ a
  | [], m, h => by simp [minList] at h
  | [a], m, h => by
    simp only [minList, Option.some.injEq] at h
    subst h
    simp
  | a :: b :: l, m, h => by
    simp only [minList] at h
    cases hm : minList (b :: l) with
    | none => rw [hm] at h; simp at h
    | some m' =>
      have ih := minList_spec (b :: l) m' hm
      rw [hm] at h
      simp only [Option.map_some, Option.some.injEq] at h
      subst h
      refine ⟨?_, ?_⟩
      · rcases min_choice a m' with e | e
        · rw [e]; simp
        · rw [e]; exact List.mem_cons_of_mem _ ih.1
      · intro c hc
        rcases List.mem_cons.1 hc with rfl | hc
        · exact min_le_left _ _
        · exact (min_le_right _ _).trans (ih.2 c hc)

theorem maxList_spec : ∀ (l : List ℝ) (m : ℝ), maxList l = some m → m ∈ l ∧ ∀ a ∈ l, a ≤ m
  | [], m, h => by simp [maxList] at h
  | [a], m, h => by
    simp only [maxList, Option.some.injEq] at h
    subst h
    simp
  | a :: b :: l, m, h => by
    simp only [maxList] at h
    cases hm : maxList (b :: l) with
    | none => rw [hm] at h; simp at h
    | some m' =>
      have ih := maxList_spec (b :: l) m' hm
      rw [hm] at h
      simp only [Option.map_some, Option.some.injEq] at h
      subst h
      refine ⟨?_, ?_⟩
      · rcases max_choice a m' with e | e
        · rw [e]; simp
        · rw [e]; exact List.mem_cons_of_mem _ ih.1
      · intro c hc
        rcases List.mem_cons.1 hc with rfl | hc
        · exact le_max_left _ _
        · exact (ih.2 c hc).trans (le_max_right _ _)

theorem box_spec (l : List V3) (b : Box) (h : box l = .ok b) :
    (∃ p ∈ l, p.x = b.xmin) ∧ (∃ p ∈ l, p.x = b.xmax) ∧ (∃ p ∈ l, p.y = b.ymin) ∧ (∃ p ∈ l, p.y = b.ymax) := by
  unfold box at h
  split at h
  · rename_i a c d f h1 h2 h3 h4
    cases h
    have e1 := (minList_spec _ _ h1).1
    have e2 := (maxList_spec _ _ h2).1
    have e3 := (minList_spec _ _ h3).1
    have e4 := (maxList_spec _ _ h4).1
    rw [List.mem_map] at e1 e2 e3 e4
    exact ⟨e1, e2, e3, e4⟩
  · exact absurd h (by simp)

theorem spacing_pos (b : Box) (n : ℕ) (s : ℝ × ℝ) (hb : b.xmin ≤ b.xmax) (hb' : b.ymin ≤ b.ymax)
    (h : spacing b n = .ok s) : 0 < s.1 ∧ 0 < s.2 := by
  unfold spacing at h
  simp only at h
  split at h
  · exact absurd h (by simp)
  · rename_i hc
    rw [not_or, not_or] at hc
    obtain ⟨h1, h2, h3⟩ := hc
    cases h
    have hx : 0 < b.xmax - b.xmin := lt_of_le_of_ne (by linarith) (Ne.symm h1)
    have hy : 0 < b.ymax - b.ymin := lt_of_le_of_ne (by linarith) (Ne.symm h2)
    have hn : (0 : ℝ) < n := by exact_mod_cast Nat.pos_of_ne_zero h3
    constructor <;> positivity

theorem mem_linspace (a b : ℝ) (n : ℤ) (l : List ℝ) (h : linspace a b n = .ok l) (d : ℝ) (hd : 0 < d)
    (hn : n = pyInt ((b - a) / d)) (x : ℝ) (hx : x ∈ l) : a ≤ x ∧ x ≤ b := by
  unfold linspace at h
  split at h
  · exact absurd h (by simp)
  · cases h
    rw [List.mem_map] at hx
    obtain ⟨i, hi, rfl⟩ := hx
    rw [List.mem_range] at hi
    have hn1 : 1 ≤ n := by omega
    have hab : a ≤ b := by
      by_contra hlt
      have hneg : (b - a) / d < 0 := div_neg_of_neg_of_pos (by linarith) hd
      rw [pyInt, if_neg (not_le.2 hneg)] at hn
      have : n ≤ 0 := by rw [hn]; exact Int.ceil_le.2 (by simpa using hneg.le)
      omega
    have hin : (i : ℤ) + 1 ≤ n := by omega
    have hi' : (i : ℝ) ≤ (n : ℝ) - 1 := by
      have : ((i : ℤ) : ℝ) + 1 ≤ n := by exact_mod_cast hin
      push_cast at this
      linarith
    have hn0 : (0 : ℝ) ≤ (n : ℝ) - 1 := by
      have : (1 : ℝ) ≤ n := by exact_mod_cast hn1
      linarith
    have hi0 : (0 : ℝ) ≤ i := Nat.cast_nonneg i
    constructor
    · have : 0 ≤ (i : ℝ) * ((b - a) / ((n : ℝ) - 1)) := mul_nonneg hi0 (div_nonneg (by linarith) hn0)
      linarith
    · rcases hn0.eq_or_lt with h0 | h0
      · rw [← h0, div_zero, mul_zero]; linarith
      · have : (i : ℝ) * ((b - a) / ((n : ℝ) - 1)) ≤ b - a := by
          rw [← mul_div_assoc, div_le_iff₀ h0, mul_comm]
          exact mul_le_mul_of_nonneg_left hi' (by linarith)
        linarith

/-- C54: all the points of the common grid are in the plane, between the extreme positions seen by both cameras in the
direction x, above the lowest positions of both cameras in the direction y, and below the highest position of the second
camera.  Missing: below the highest position of the first camera (`C54_common_grid_fails`). -/
theorem C54_common_grid_partial (X0 X1 : List V3) (e : ℝ × ℝ × ℝ × ℝ) (grid : List V3)
    (h : findCommonGrid X0 X1 e = .ok grid) (v : V3) (hv : v ∈ grid) :
    InPlane e v ∧
    (∀ X ∈ [X0, X1], (∃ p ∈ X, p.x ≤ v.x) ∧ (∃ p ∈ X, v.x ≤ p.x) ∧ (∃ p ∈ X, p.y ≤ v.y)) ∧ (∃ p ∈ X1, v.y ≤ p.y) := by
  unfold findCommonGrid at h
  split at h
  · rename_i b0 b1 hb0 hb1
    simp only at h
    split at h
    · rename_i s0 s1 hs0 hs1
      split at h
      · rename_i xs ys hxs hys
        split at h
        · exact absurd h (by simp)
        · rename_i hc
          simp only [Except.ok.injEq] at h
          subst h
          rw [List.mem_flatMap] at hv
          obtain ⟨x, hx, hv⟩ := hv
          rw [List.mem_map] at hv
          obtain ⟨y, hy, rfl⟩ := hv
          obtain ⟨q1, q2, q3, q4⟩ := box_spec X0 b0 hb0
          obtain ⟨r1, r2, r3, r4⟩ := box_spec X1 b1 hb1
          have ordered : ∀ X b, box X = .ok b → b.xmin ≤ b.xmax ∧ b.ymin ≤ b.ymax := by
            intro X b hb
            unfold box at hb
            split at hb
            · rename_i a c d f h1 h2 h3 h4
              cases hb
              exact ⟨(minList_spec _ _ h1).2 _ (maxList_spec _ _ h2).1, (minList_spec _ _ h3).2 _ (maxList_spec _ _ h4).1⟩
            · exact absurd hb (by simp)
          have p0 := spacing_pos b0 _ s0 (ordered _ _ hb0).1 (ordered _ _ hb0).2 hs0
          have hX := mem_linspace _ _ _ xs hxs (max s0.1 s1.1) (lt_max_of_lt_left p0.1) rfl x hx
          have hY := mem_linspace _ _ _ ys hys (max s0.2 s1.2) (lt_max_of_lt_left p0.2) rfl y hy
          rw [max_le_iff, le_min_iff] at hX
          rw [max_le_iff, le_min_iff] at hY
          refine ⟨?_, ?_, ?_⟩
          · simp only [InPlane]
            field_simp
            ring
          · intro X hXm
            simp only [List.mem_cons, List.not_mem_nil, or_false] at hXm
            rcases hXm with rfl | rfl
            · obtain ⟨a, ha, ea⟩ := q1
              obtain ⟨b, hb, eb⟩ := q2
              obtain ⟨c, hc', ec⟩ := q3
              exact ⟨⟨a, ha, by rw [ea]; exact hX.1.1⟩, ⟨b, hb, by rw [eb]; exact hX.2.1⟩, ⟨c, hc', by rw [ec]; exact hY.1.1⟩⟩
            · obtain ⟨a, ha, ea⟩ := r1
              obtain ⟨b, hb, eb⟩ := r2
              obtain ⟨c, hc', ec⟩ := r3
              exact ⟨⟨a, ha, by rw [ea]; exact hX.1.2⟩, ⟨b, hb, by rw [eb]; exact hX.2.2⟩, ⟨c, hc', by rw [ec]; exact hY.1.2⟩⟩
          · obtain ⟨c, hc', ec⟩ := r4
            exact ⟨c, hc', by rw [ec]; exact hY.2.1⟩
      · exact absurd h (by simp)
    · exact absurd h (by simp)
  · exact absurd h (by simp)

/-- Positions seen by the first camera: x between 0 and 4, y between 0 and 1. -/
def gridX0 : List V3 := [⟨0, 0, 0⟩, ⟨4, 0, 0⟩, ⟨0, 1, 0⟩, ⟨4, 1, 0⟩]
/-- Positions seen by the second camera: x and y between 0 and 4. -/
def gridX1 : List V3 := [⟨0, 0, 0⟩, ⟨4, 0, 0⟩, ⟨0, 4, 0⟩, ⟨4, 4, 0⟩]

theorem sqrt_four : Real.sqrt 4 = 2 := by
  rw [show (4 : ℝ) = 2 ^ 2 by norm_num, Real.sqrt_sq (by norm_num)]

/-- The common grid of this example. -/
theorem common_grid_example :
    findCommonGrid gridX0 gridX1 (0, 0, 1, 0) = .ok [⟨0, 0, 0⟩, ⟨0, 4, 0⟩, ⟨4, 0, 0⟩, ⟨4, 4, 0⟩] := by
  have b0 : box gridX0 = .ok ⟨0, 4, 0, 1⟩ := by
    simp [box, gridX0, minList, maxList]
  have b1 : box gridX1 = .ok ⟨0, 4, 0, 4⟩ := by
    simp [box, gridX1, minList, maxList]
  have s0 : spacing ⟨0, 4, 0, 1⟩ gridX0.length = .ok (1, 1) := by
    simp only [spacing, gridX0, List.length_cons, List.length_nil]
    norm_num [sqrt_four]
  have s1 : spacing ⟨0, 4, 0, 4⟩ gridX1.length = .ok (2, 2) := by
    simp only [spacing, gridX1, List.length_cons, List.length_nil]
    norm_num [sqrt_four]
  have hi : pyInt 2 = 2 := by
    unfold pyInt
    rw [if_pos (by norm_num)]
    exact_mod_cast Int.floor_natCast 2
  have hl : linspace 0 4 2 = .ok [0, 4] := by
    unfold linspace
    rw [if_neg (by norm_num), show (2 : ℤ).toNat = 2 from rfl]
    simp [List.range_succ]
    norm_num
  unfold findCommonGrid
  rw [b0, b1]
  simp only
  rw [s0, s1]
  simp only
  norm_num [hi, hl]

/-- C54 fails for the common grid: a point of the grid above all the positions seen by the first camera. -/
theorem C54_common_grid_fails : ∃ X0 X1 e grid v, findCommonGrid X0 X1 e = .ok grid ∧ v ∈ grid ∧ ∀ p ∈ X0, p.y < v.y := by
  refine ⟨gridX0, gridX1, _, _, ⟨0, 4, 0⟩, common_grid_example, by simp, ?_⟩
  intro p hp
  simp only [gridX0, List.mem_cons, List.not_mem_nil, or_false] at hp
  rcases hp with rfl | rfl | rfl | rfl <;> norm_num

/-! ## C67: reconstruction of the displacements -/

/-- All the optical paths of the camera have the direction `n`. -/
def Parallel (L : Lines) (n : V3) : Prop := ∀ ix iy p u, L ix iy = some (p, u) → ∃ k : ℝ, k ≠ 0 ∧ u = n.smul k

/-- A displacement field that is an affine function of the position in the plane. -/
structure AffineField where
  d0 : V3
  dx : V3
  dy : V3

/-- Value of the field. -/
def AffineField.at (D : AffineField) (x y : ℝ) : V3 := (D.d0.add (D.dx.smul x)).add (D.dy.smul y)

/-- The camera measures the displacement of the particle that is at `P` in the plane: the particle is at `P - D / 2`, then
at `P + D / 2`, and it is seen at the pixels `(ix - dx / 2, iy - dy / 2)`, then `(ix + dx / 2, iy + dy / 2)`. -/
def Measures (L : Lines) (e : ℝ × ℝ × ℝ × ℝ) (D : AffineField) (m : PixDispl) : Prop :=
  ∃ P, InPlane e P ∧ OnPath L m.ix m.iy P ∧
    OnPath L (m.ix + m.dx / 2) (m.iy + m.dy / 2) (P.add ((D.at P.x P.y).smul (1 / 2))) ∧
    OnPath L (m.ix - m.dx / 2) (m.iy - m.dy / 2) (P.add ((D.at P.x P.y).smul (-(1 / 2))))

/-- What is used of the linear interpolation of scipy: at a point, NaN for all the values, or a weighted sum of the values
with weights that depend only on the positions and that give the position. -/
def IsLinearInterpolation (g : GridData) : Prop :=
  ∀ pts q, (∀ vals, g pts vals q = none) ∨
    ∃ w : List ℝ, w.length = pts.length ∧ w.sum = 1 ∧ (w.zipWith (· * ·) (pts.map Prod.fst)).sum = q.1 ∧
      (w.zipWith (· * ·) (pts.map Prod.snd)).sum = q.2 ∧
      ∀ vals, vals.length = pts.length → g pts vals q = some (w.zipWith (· * ·) vals).sum

/-- The displacements given to `reconstruction`. -/
noncomputable def measured (L : Lines) (B : M3) (e : ℝ × ℝ × ℝ × ℝ) (ms : List PixDispl) : List (Option V3 × Option (ℝ × ℝ)) :=
  ms.map (project L B e)

/-- At least one of the four systems is used. -/
def UsesASystem (s : Stereo) : Prop :=
  (s.n1 < threshold ∧ s.n3 < threshold) ∨ (s.n1 < threshold ∧ s.n4 < threshold) ∨
  (s.n2 < threshold ∧ s.n4 < threshold) ∨ (s.n2 < threshold ∧ s.n3 < threshold)

theorem OnPath.intersect {L : Lines} {ix iy : ℝ} {e : ℝ × ℝ × ℝ × ℝ} {n w v : V3} (hp : Parallel L n) (hw : OnPath L ix iy w)
    (h : intersect L ix iy e = some v) : ∃ k : ℝ, v = w.add (n.smul k) := by
  obtain ⟨_, ⟨p, u, t, hL, hv⟩, _⟩ := C54_intersection L ix iy e v h
  obtain ⟨p', u', t', hL', hw'⟩ := hw
  rw [hL] at hL'
  simp only [Option.some.injEq, Prod.mk.injEq] at hL'
  obtain ⟨rfl, rfl⟩ := hL'
  obtain ⟨k, _, rfl⟩ := hp ix iy p u hL
  refine ⟨k * (t - t'), ?_⟩
  rw [hv, hw']
  ext <;> simp only [V3.add, V3.smul] <;> ring

/-- What the projection gives for a measure. -/
theorem project_measures (L : Lines) (n : V3) (A B : M3) (e : ℝ × ℝ × ℝ × ℝ) (D : AffineField) (m : PixDispl)
    (hp : Parallel L n) (hb : baseFromNormal n.x n.y n.z = .ok (A, B)) (hm : Measures L e D m) (p : V3) (d : ℝ × ℝ)
    (h : project L B e m = (some p, some d)) :
    d.1 = (B.mulVec (D.at p.x p.y)).x ∧ d.2 = (B.mulVec (D.at p.x p.y)).y := by
  -- the directions of the optical paths have no component in the plane of the camera
  have hnz : n.z ≠ 0 := by
    intro h0
    unfold baseFromNormal at hb
    rw [if_pos h0] at hb
    exact absurd hb (by simp)
  obtain ⟨A', B', hb', _, _, _, d01, d12, d02, _, _, hcol, _, _, _, _, hT⟩ := C54_base n.x n.y n.z hnz
  rw [hb] at hb'
  simp only [Except.ok.injEq, Prod.mk.injEq] at hb'
  obtain ⟨rfl, rfl⟩ := hb'
  have hn : n = A.col2.smul (V3.norm n) := hcol.symm
  have z0 : B.r0.dot n = 0 := by
    have e1 : B.r0 = A.col0 := by rw [hT]; rfl
    rw [e1]
    have e2 : A.col0.dot n = V3.norm n * A.col0.dot A.col2 := by
      conv_lhs => rw [hn]
      simp only [V3.dot, V3.smul]; ring
    rw [e2, d02, mul_zero]
  have z1 : B.r1.dot n = 0 := by
    have e1 : B.r1 = A.col1 := by rw [hT]; rfl
    rw [e1]
    have e2 : A.col1.dot n = V3.norm n * A.col1.dot A.col2 := by
      conv_lhs => rw [hn]
      simp only [V3.dot, V3.smul]; ring
    rw [e2, d12, mul_zero]
  unfold project at h
  simp only [Prod.mk.injEq] at h
  obtain ⟨hX, hd⟩ := h
  obtain ⟨P, hP, hon, hb1, hb2⟩ := hm
  have hPp : P = p := (C54_intersection L m.ix m.iy e p hX).2.2 P hP hon
  subst hPp
  unfold applyCalib at hd
  cases h1 : intersect L (m.ix + m.dx / 2) (m.iy + m.dy / 2) e with
  | none => rw [h1] at hd; exact absurd hd (by simp)
  | some v1 =>
    cases h2 : intersect L (m.ix - m.dx / 2) (m.iy - m.dy / 2) e with
    | none => rw [h1, h2] at hd; exact absurd hd (by simp)
    | some v2 =>
      rw [h1, h2] at hd
      simp only [Option.some.injEq] at hd
      obtain ⟨k1, e1⟩ := hb1.intersect hp h1
      obtain ⟨k2, e2⟩ := hb2.intersect hp h2
      rw [← hd, e1, e2]
      simp only [M3.mulVec, V3.dot, V3.add, V3.sub, V3.smul] at z0 z1 ⊢
      constructor
      · linear_combination (k1 - k2) * z0
      · linear_combination (k1 - k2) * z1

theorem sum_zipWith_affine (w : List ℝ) : ∀ (pts : List V3) (a b c : ℝ), w.length = pts.length →
    (w.zipWith (· * ·) (pts.map fun p => a + b * p.x + c * p.y)).sum
      = a * w.sum + b * (w.zipWith (· * ·) (pts.map fun p => p.x)).sum + c * (w.zipWith (· * ·) (pts.map fun p => p.y)).sum := by
  induction w with
  | nil => intro pts a b c _; simp
  | cons x w ih =>
    intro pts a b c hl
    cases pts with
    | nil => simp at hl
    | cons p pts =>
      simp only [List.map_cons, List.zipWith_cons_cons, List.sum_cons]
      rw [ih pts a b c (by simpa using hl)]
      ring

/-- The interpolation of the displacements of a camera at a point of the grid. -/
theorem interpCam_eq (g : GridData) (hg : IsLinearInterpolation g) (L : Lines) (n : V3) (A B : M3) (e : ℝ × ℝ × ℝ × ℝ)
    (D : AffineField) (ms : List PixDispl) (hp : Parallel L n) (hb : baseFromNormal n.x n.y n.z = .ok (A, B))
    (hm : ∀ m ∈ ms, Measures L e D m) (q : ℝ × ℝ) :
    interpCam g (measured L B e ms) q = (none, none) ∨
    interpCam g (measured L B e ms) q = (some (B.mulVec (D.at q.1 q.2)).x, some (B.mulVec (D.at q.1 q.2)).y) := by
  have hval : ∀ r ∈ valid (measured L B e ms),
      r.2.1 = (B.mulVec (D.at r.1.x r.1.y)).x ∧ r.2.2 = (B.mulVec (D.at r.1.x r.1.y)).y := by
    intro r hr
    unfold valid at hr
    rw [List.mem_filterMap] at hr
    obtain ⟨o, ho, hor⟩ := hr
    unfold measured at ho
    rw [List.mem_map] at ho
    obtain ⟨m, hmm, hmo⟩ := ho
    split at hor
    · rename_i p d h1 h2
      simp only [Option.some.injEq] at hor
      subst hor
      exact project_measures L n A B e D m hp hb (hm m hmm) p d (by rw [hmo]; exact Prod.ext h1 h2)
    · exact absurd hor (by simp)
  unfold interpCam
  generalize valid (measured L B e ms) = vs at hval ⊢
  have hlin : ∀ row : V3, ∀ sel : V3 × (ℝ × ℝ) → ℝ, (∀ r ∈ vs, sel r = row.dot (D.at r.1.x r.1.y)) →
      vs.map sel = (vs.map fun r => r.1).map fun p => row.dot D.d0 + row.dot D.dx * p.x + row.dot D.dy * p.y := by
    intro row sel hsel
    rw [List.map_map]
    apply List.map_congr_left
    intro r hr
    rw [hsel r hr]
    simp only [AffineField.at, V3.dot, V3.add, V3.smul, Function.comp]
    ring
  rcases hg (vs.map fun r => (r.1.x, r.1.y)) q with hnone | ⟨w, hwl, hw1, hwx, hwy, hval2⟩
  · left
    rw [hnone, hnone]
  · right
    have hl : w.length = (vs.map fun r => r.1).length := by rw [hwl]; simp
    have ex : (vs.map fun r => (r.1.x, r.1.y)).map Prod.fst = (vs.map fun r => r.1).map fun p => p.x := by simp [List.map_map]
    have ey : (vs.map fun r => (r.1.x, r.1.y)).map Prod.snd = (vs.map fun r => r.1).map fun p => p.y := by simp [List.map_map]
    have fin : ∀ row : V3, ∀ sel : V3 × (ℝ × ℝ) → ℝ, (∀ r ∈ vs, sel r = row.dot (D.at r.1.x r.1.y)) →
        g (vs.map fun r => (r.1.x, r.1.y)) (vs.map sel) q = some (row.dot (D.at q.1 q.2)) := by
      intro row sel hsel
      rw [hval2 _ (by simp), hlin row sel hsel, sum_zipWith_affine w _ _ _ _ hl, hw1, ← ex, hwx, ← ey, hwy]
      simp only [AffineField.at, V3.dot, V3.add, V3.smul]
      congr 1
      ring
    rw [fin B.r0 _ (fun r hr => (hval r hr).1), fin B.r1 _ (fun r hr => (hval r hr).2)]
    rfl

theorem nanmean_const (l : List (Option V3)) (n : V3) (f : V3 → ℝ) (h : ∀ d ∈ l, d = none ∨ d = some n) (m : ℝ)
    (hm : nanmean (l.map (Option.map f)) = some m) : m = f n := by
  unfold nanmean at hm
  have hall : ∀ v ∈ (l.map (Option.map f)).filterMap id, v = f n := by
    intro v hv
    rw [List.mem_filterMap] at hv
    obtain ⟨o, ho, hov⟩ := hv
    rw [List.mem_map] at ho
    obtain ⟨d, hd, rfl⟩ := ho
    rcases h d hd with rfl | rfl
    · simp at hov
    · simpa using hov.symm
  generalize (l.map (Option.map f)).filterMap id = vs at hm hall
  have hsum : ∀ us : List ℝ, (∀ v ∈ us, v = f n) → us.sum = us.length * f n := by
    intro us
    induction us with
    | nil => simp
    | cons a us ih =>
      intro hu
      rw [List.sum_cons, ih (fun v hv => hu v (List.mem_cons_of_mem _ hv)), hu a (by simp), List.length_cons]
      push_cast
      ring
  cases vs with
  | nil => simp at hm
  | cons a us =>
    simp only [Option.some.injEq] at hm
    rw [hsum _ hall] at hm
    rw [← hm]
    have : ((a :: us).length : ℝ) ≠ 0 := by simp; positivity
    field_simp

theorem baseCamera_const (l : List (Option V3)) (n : V3) (h : ∀ d ∈ l, d = none ∨ d = some n) (r : M3 × M3)
    (hr : baseCamera l = .ok r) : baseFromNormal n.x n.y n.z = .ok r := by
  unfold baseCamera at hr
  split at hr
  · rename_i dx dy dz h1 h2 h3
    rw [nanmean_const l n V3.x h dx h1, nanmean_const l n V3.y h dy h2, nanmean_const l n V3.z h dz h3] at hr
    exact hr
  · exact absurd hr (by simp)

/-- What is known of an object of the class. -/
theorem mkStereo_spec (dirs0 dirs1 : List (Option V3)) (s : Stereo) (h : mkStereo dirs0 dirs1 = .ok s) :
    baseCamera dirs0 = .ok (s.A0, s.B0) ∧ baseCamera dirs1 = .ok (s.A1, s.B1) ∧
    (matM0 s.B0 s.B1).inv = .ok s.invM0 ∧ (matM1 s.B0 s.B1).inv = .ok s.invM1 ∧
    (matM2 s.B0 s.B1).inv = .ok s.invM2 ∧ (matM3 s.B0 s.B1).inv = .ok s.invM3 := by
  unfold mkStereo at h
  split at h
  · exact absurd h (by simp)
  · rename_i A0 B0 h0
    split at h
    · exact absurd h (by simp)
    · rename_i A1 B1 h1
      split at h
      · exact absurd h (by simp)
      · split at h
        · exact absurd h (by simp)
        · rename_i i0 e0
          split at h
          · exact absurd h (by simp)
          · rename_i i1 e1
            split at h
            · exact absurd h (by simp)
            · rename_i i2 e2
              split at h
              · exact absurd h (by simp)
              · rename_i i3 e3
                cases h
                exact ⟨h0, h1, e0, e1, e2, e3⟩

theorem meanStd_spec (l : List ℝ) (hne : l ≠ []) :
    (meanStd l).1 * l.length = l.sum ∧ 0 ≤ (meanStd l).2 ∧
      (meanStd l).2 ^ 2 * l.length = (l.map fun x => (x - (meanStd l).1) ^ 2).sum := by
  have hlen : (0 : ℝ) < l.length := by
    have : 0 < l.length := List.length_pos_iff.2 hne
    exact_mod_cast this
  unfold meanStd
  simp only
  refine ⟨by field_simp, Real.sqrt_nonneg _, ?_⟩
  rw [Real.sq_sqrt]
  · rw [div_mul_cancel₀ _ hlen.ne']
  · apply div_nonneg _ hlen.le
    apply List.sum_nonneg
    intro x hx
    rw [List.mem_map] at hx
    obtain ⟨y, _, rfl⟩ := hx
    positivity

/-- C67: the displacement and the error of each component are the mean and the standard deviation of the solutions which are
not NaN. -/
theorem C67_mean_std (l : List (Option V3)) (d e : V3) (h : combine l = .ok (some (d, e))) (c : V3 → ℝ)
    (hc : c = V3.x ∨ c = V3.y ∨ c = V3.z) :
    let v := (l.filterMap id).map c
    c d * v.length = v.sum ∧ 0 ≤ c e ∧ c e ^ 2 * v.length = (v.map fun x => (x - c d) ^ 2).sum := by
  unfold combine at h
  cases l with
  | nil => cases h
  | cons o l =>
    simp only at h
    generalize hv : (o :: l).filterMap id = v at h
    cases v with
    | nil => simp at h
    | cons a v =>
      simp only [Except.ok.injEq, Option.some.injEq, Prod.mk.injEq] at h
      obtain ⟨h1, h2⟩ := h
      subst h1 h2
      have key := fun f : V3 → ℝ => meanStd_spec ((a :: v).map f) (by simp)
      intro v'
      rcases hc with rfl | rfl | rfl
      · have e : v' = (a :: v).map V3.x := by simp only [v', hv]
        rw [e]; exact key V3.x
      · have e : v' = (a :: v).map V3.y := by simp only [v', hv]
        rw [e]; exact key V3.y
      · have e : v' = (a :: v).map V3.z := by simp only [v', hv]
        rw [e]; exact key V3.z

/-- Non-vacuity: two solutions, which differ by 2 along `x`. -/
example : ∃ d e, combine [some ⟨1, 0, 0⟩, none, some ⟨3, 0, 0⟩] = .ok (some (d, e)) ∧ d.x = 2 ∧ e.x ^ 2 = 1 := by
  obtain ⟨d, e, h⟩ : ∃ d e, combine [some ⟨1, 0, 0⟩, none, some ⟨3, 0, 0⟩] = .ok (some (d, e)) := ⟨_, _, rfl⟩
  obtain ⟨h1, _, h3⟩ := C67_mean_std _ d e h V3.x (Or.inl rfl)
  have ev : (([some ⟨1, 0, 0⟩, none, some ⟨3, 0, 0⟩] : List (Option V3)).filterMap id).map V3.x = [1, 3] := rfl
  rw [ev] at h1 h3
  simp only [List.length_cons, List.length_nil, List.sum_cons, List.sum_nil, List.map_cons, List.map_nil] at h1 h3
  push_cast at h1 h3
  have hd : d.x = 2 := by linarith
  rw [hd] at h3
  exact ⟨d, e, h, hd, by linarith⟩

theorem meanStd_const (l : List ℝ) (c : ℝ) (hne : l ≠ []) (h : ∀ v ∈ l, v = c) : meanStd l = (c, 0) := by
  have hsum : ∀ us : List ℝ, (∀ v ∈ us, v = c) → us.sum = us.length * c := by
    intro us
    induction us with
    | nil => simp
    | cons a us ih =>
      intro hu
      rw [List.sum_cons, ih (fun v hv => hu v (List.mem_cons_of_mem _ hv)), hu a (by simp), List.length_cons]
      push_cast
      ring
  have hlen : (l.length : ℝ) ≠ 0 := by
    have : l.length ≠ 0 := fun h0 => hne (List.length_eq_zero_iff.1 h0)
    exact_mod_cast this
  have hmean : l.sum / l.length = c := by rw [hsum l h]; field_simp
  unfold meanStd
  simp only
  rw [hmean]
  have hz : (l.map fun x => (x - c) ^ 2).sum = 0 := by
    apply List.sum_eq_zero
    intro x hx
    rw [List.mem_map] at hx
    obtain ⟨v, hv, rfl⟩ := hx
    rw [h v hv]; ring
  rw [hz]
  simp

theorem combine_const (l : List (Option V3)) (v : V3) (hne : l ≠ []) (h : ∀ o ∈ l, o = none ∨ o = some v) :
    combine l = .ok none ∨ combine l = .ok (some (v, ⟨0, 0, 0⟩)) := by
  have hall : ∀ u ∈ l.filterMap id, u = v := by
    intro u hu
    rw [List.mem_filterMap] at hu
    obtain ⟨o, ho, hou⟩ := hu
    rcases h o ho with rfl | rfl
    · simp at hou
    · simpa using hou.symm
  cases l with
  | nil => exact absurd rfl hne
  | cons o l =>
    unfold combine
    simp only
    split
    · exact Or.inl rfl
    · rename_i hvs
      right
      have hc : ∀ f : V3 → ℝ, meanStd (((o :: l).filterMap id).map f) = (f v, 0) := by
        intro f
        apply meanStd_const
        · intro h0
          exact hvs (List.map_eq_nil_iff.1 h0)
        · intro x hx
          rw [List.mem_map] at hx
          obtain ⟨u, hu, rfl⟩ := hx
          rw [hall u hu]
      rw [hc, hc, hc]

/-- The solution of a system. -/
theorem solve3_eq (m i : M3) (hi : m.inv = .ok i) (v : V3) (a b c : Option ℝ) (ha : a = none ∨ a = some (m.mulVec v).x)
    (hb : b = none ∨ b = some (m.mulVec v).y) (hc : c = none ∨ c = some (m.mulVec v).z) :
    solve3 i a b c = none ∨ solve3 i a b c = some v := by
  unfold solve3
  split
  · rename_i x y z
    right
    have ea : x = (m.mulVec v).x := by simpa using ha
    have eb : y = (m.mulVec v).y := by simpa using hb
    have ec : z = (m.mulVec v).z := by simpa using hc
    rw [ea, eb, ec]
    exact congrArg some (M3.inv_mulVec m i hi v)
  · exact Or.inl rfl

/-- C67: two cameras with parallel optical paths, particles with a displacement that is an affine function of the position
in the plane (with three components), any set of measures by the two cameras, any linear interpolation: at all the points
of the grid, the reconstruction is NaN or the displacement, with an error equal to 0.  It is the displacement when both
interpolations are defined at this point.  Missing: the creation of the object can fail, and no system of equations is used
when a determinant is small (`C67_no_system_fails`, `C67_cameras_in_a_plane_fails`). -/
theorem C67_reconstruction_partial (dirs0 dirs1 : List (Option V3)) (s : Stereo) (hs : mkStereo dirs0 dirs1 = .ok s)
    (L0 L1 : Lines) (n0 n1 : V3) (hp0 : Parallel L0 n0) (hp1 : Parallel L1 n1)
    (hd0 : ∀ d ∈ dirs0, d = none ∨ d = some n0) (hd1 : ∀ d ∈ dirs1, d = none ∨ d = some n1)
    (g : GridData) (hg : IsLinearInterpolation g) (e : ℝ × ℝ × ℝ × ℝ) (D : AffineField) (ms0 ms1 : List PixDispl)
    (hm0 : ∀ m ∈ ms0, Measures L0 e D m) (hm1 : ∀ m ∈ ms1, Measures L1 e D m) (hu : UsesASystem s) (q : ℝ × ℝ) :
    let r := s.reconstruct g (measured L0 s.B0 e ms0) (measured L1 s.B1 e ms1) q
    (r = .ok none ∨ r = .ok (some (D.at q.1 q.2, ⟨0, 0, 0⟩))) ∧
    ((interpCam g (measured L0 s.B0 e ms0) q).1 ≠ none → (interpCam g (measured L1 s.B1 e ms1) q).1 ≠ none →
      r = .ok (some (D.at q.1 q.2, ⟨0, 0, 0⟩))) := by
  obtain ⟨hA0, hA1, i0, i1, i2, i3⟩ := mkStereo_spec dirs0 dirs1 s hs
  have hb0 := baseCamera_const dirs0 n0 hd0 _ hA0
  have hb1 := baseCamera_const dirs1 n1 hd1 _ hA1
  have c0 := interpCam_eq g hg L0 n0 s.A0 s.B0 e D ms0 hp0 hb0 hm0 q
  have c1 := interpCam_eq g hg L1 n1 s.A1 s.B1 e D ms1 hp1 hb1 hm1 q
  simp only
  unfold Stereo.reconstruct
  generalize interpCam g (measured L0 s.B0 e ms0) q = d0 at c0 ⊢
  generalize interpCam g (measured L1 s.B1 e ms1) q = d1 at c1 ⊢
  generalize hv : D.at q.1 q.2 = v at c0 c1 ⊢
  have hne : s.solutions d0 d1 ≠ [] := by
    unfold Stereo.solutions
    unfold UsesASystem at hu
    rcases hu with h | h | h | h <;> simp [h]
  have d01 : d0.1 = none ∨ d0.1 = some (s.B0.mulVec v).x := by rcases c0 with h | h <;> simp [h]
  have d02 : d0.2 = none ∨ d0.2 = some (s.B0.mulVec v).y := by rcases c0 with h | h <;> simp [h]
  have d11 : d1.1 = none ∨ d1.1 = some (s.B1.mulVec v).x := by rcases c1 with h | h <;> simp [h]
  have d12 : d1.2 = none ∨ d1.2 = some (s.B1.mulVec v).y := by rcases c1 with h | h <;> simp [h]
  have hsol : ∀ o ∈ s.solutions d0 d1, o = none ∨ o = some v := by
    intro o ho
    unfold Stereo.solutions at ho
    simp only [List.mem_append, List.mem_ite_nil_right, List.mem_singleton] at ho
    rcases ho with ((⟨_, rfl⟩ | ⟨_, rfl⟩) | ⟨_, rfl⟩) | ⟨_, rfl⟩
    · exact solve3_eq _ _ i0 v _ _ _ d01 d02 d11
    · exact solve3_eq _ _ i1 v _ _ _ d01 d11 d12
    · exact solve3_eq _ _ i2 v _ _ _ d01 d02 d12
    · exact solve3_eq _ _ i3 v _ _ _ d02 d11 d12
  have hr := combine_const (s.solutions d0 d1) v hne hsol
  refine ⟨hr, fun n0 n1 => hr.resolve_left (fun hnone => ?_)⟩
  have hd0 : d0 = (some (s.B0.mulVec v).x, some (s.B0.mulVec v).y) := by
    rcases c0 with h | h
    · rw [h] at n0; exact absurd rfl n0
    · exact h
  have hd1 : d1 = (some (s.B1.mulVec v).x, some (s.B1.mulVec v).y) := by
    rcases c1 with h | h
    · rw [h] at n1; exact absurd rfl n1
    · exact h
  have hsome : ∀ o ∈ s.solutions d0 d1, o ≠ none := by
    intro o ho
    unfold Stereo.solutions at ho
    rw [hd0, hd1] at ho
    simp only [List.mem_append, List.mem_ite_nil_right, List.mem_singleton, solve3] at ho
    rcases ho with ((⟨_, rfl⟩ | ⟨_, rfl⟩) | ⟨_, rfl⟩) | ⟨_, rfl⟩ <;> simp
  cases hl : s.solutions d0 d1 with
  | nil => exact hne hl
  | cons o l =>
    rw [hl] at hnone hsome
    cases o with
    | none => exact hsome none (by simp) rfl
    | some u => simp [combine] at hnone

/-- C67, errors: if no system is used, the reconstruction fails for all the data. -/
theorem C67_no_system_fails (s : Stereo) (hu : ¬ UsesASystem s) (g : GridData) (l0 l1 : List (Option V3 × Option (ℝ × ℝ)))
    (q : ℝ × ℝ) : s.reconstruct g l0 l1 q = .error .typeError := by
  unfold UsesASystem at hu
  rw [not_or, not_or, not_or] at hu
  unfold Stereo.reconstruct Stereo.solutions
  rw [if_neg hu.1, if_neg hu.2.1, if_neg hu.2.2.1, if_neg hu.2.2.2]
  rfl

/-- C67, errors: two cameras with the same direction (for instance the same file given twice) are refused with the
exception which tells it, and not with the one of the inverse of a singular matrix. -/
theorem C67_same_cameras (dirs0 dirs1 : List (Option V3)) (A : M3 × M3) (h0 : baseCamera dirs0 = .ok A)
    (h1 : baseCamera dirs1 = .ok A) : mkStereo dirs0 dirs1 = .error .valueError := by
  have hc : allclose A.1 A.1 := by
    intro q hq
    have hqq : q.1 = q.2 := by
      simp only [M3.elems, List.zip_cons_cons, List.zip_nil_right, List.mem_cons, List.not_mem_nil, or_false] at hq
      rcases hq with rfl | rfl | rfl | rfl | rfl | rfl | rfl | rfl | rfl <;> rfl
    rw [hqq, sub_self, abs_zero]
    positivity
  unfold mkStereo
  rw [h0, h1]
  exact if_pos hc

/-- C67 fails for the usual arrangement of two cameras, with the two mean directions in the plane `y = 0`: the second
vectors of the two bases are then equal or opposite, one of the matrices is singular and the object cannot be created. -/
theorem C67_cameras_in_a_plane_fails (dirs0 dirs1 : List (Option V3)) (n0 n1 : V3)
    (hd0 : ∀ d ∈ dirs0, d = none ∨ d = some n0) (hd1 : ∀ d ∈ dirs1, d = none ∨ d = some n1) (h0 : n0.y = 0) (h1 : n1.y = 0) :
    ∃ er, mkStereo dirs0 dirs1 = .error er := by
  cases hs : mkStereo dirs0 dirs1 with
  | error er => exact ⟨er, rfl⟩
  | ok s =>
    exfalso
    obtain ⟨hA0, hA1, _, _, i2, _⟩ := mkStereo_spec dirs0 dirs1 s hs
    have row : ∀ (dirs : List (Option V3)) (n : V3) (A B : M3), (∀ d ∈ dirs, d = none ∨ d = some n) →
        baseCamera dirs = .ok (A, B) → n.y = 0 → B.r0.y = 0 ∧ B.r1.x = 0 ∧ B.r1.z = 0 := by
      intro dirs n A B hd hA hy
      have hb := baseCamera_const dirs n hd _ hA
      have hnz : n.z ≠ 0 := by
        intro h0
        unfold baseFromNormal at hb
        rw [if_pos h0] at hb
        exact absurd hb (by simp)
      obtain ⟨A', B', hb', _, _, _, _, _, _, _, hcross, hcol, hcy, _, _, _, hT⟩ := C54_base n.x n.y n.z hnz
      rw [hb] at hb'
      simp only [Except.ok.injEq, Prod.mk.injEq] at hb'
      obtain ⟨rfl, rfl⟩ := hb'
      have hN : V3.norm ⟨n.x, n.y, n.z⟩ ≠ 0 := by
        unfold V3.norm
        have : 0 < n.z ^ 2 := by positivity
        positivity
      have h2y : A.col2.y = 0 := by
        have := congrArg V3.y hcol
        simp only [V3.smul, hy] at this
        exact (mul_eq_zero.1 this).resolve_left (by rw [hy] at hN; exact hN)
      rw [hT]
      refine ⟨hcy, ?_, ?_⟩
      · show A.col1.x = 0
        rw [hcross]; simp only [V3.cross, hcy, h2y]; ring
      · show A.col1.z = 0
        rw [hcross]; simp only [V3.cross, hcy, h2y]; ring
    obtain ⟨_, x0, z0⟩ := row dirs0 n0 s.A0 s.B0 hd0 hA0 h0
    obtain ⟨_, x1, z1⟩ := row dirs1 n1 s.A1 s.B1 hd1 hA1 h1
    have hdet : (matM2 s.B0 s.B1).det = 0 := by
      simp only [M3.det, matM2, V3.dot, V3.cross, x0, z0, x1, z1]
      ring
    unfold M3.inv at i2
    rw [if_pos hdet] at i2
    exact absurd i2 (by simp)

/-! ### Non-vacuity of `C67_reconstruction_partial` -/

/-- Direction of the first camera. -/
def exN0 : V3 := ⟨3, 12, 4⟩
/-- Direction of the second camera. -/
def exN1 : V3 := ⟨-3, 12, 4⟩

theorem norm_13 : V3.norm ⟨3, 12, 4⟩ = 13 ∧ V3.norm ⟨-3, 12, 4⟩ = 13 := by
  constructor <;> unfold V3.norm
  · rw [show ((3 : ℝ) ^ 2 + 12 ^ 2 + 4 ^ 2) = 13 ^ 2 by norm_num, Real.sqrt_sq (by norm_num)]
  · rw [show ((-3 : ℝ) ^ 2 + 12 ^ 2 + 4 ^ 2) = 13 ^ 2 by norm_num, Real.sqrt_sq (by norm_num)]

theorem norm_5_4 : V3.norm ⟨1, 0, -(1 * 3 + 0 * 12) / 4⟩ = 5 / 4 ∧ V3.norm ⟨1, 0, -(1 * -3 + 0 * 12) / 4⟩ = 5 / 4 := by
  constructor <;> unfold V3.norm
  · rw [show ((1 : ℝ) ^ 2 + 0 ^ 2 + (-(1 * 3 + 0 * 12) / 4) ^ 2) = (5 / 4) ^ 2 by norm_num, Real.sqrt_sq (by norm_num)]
  · rw [show ((1 : ℝ) ^ 2 + 0 ^ 2 + (-(1 * -3 + 0 * 12) / 4) ^ 2) = (5 / 4) ^ 2 by norm_num, Real.sqrt_sq (by norm_num)]

noncomputable def exA0 : M3 := ⟨⟨4 / 5, -36 / 65, 3 / 13⟩, ⟨0, 25 / 65, 12 / 13⟩, ⟨-3 / 5, -48 / 65, 4 / 13⟩⟩
noncomputable def exA1 : M3 := ⟨⟨4 / 5, 36 / 65, -3 / 13⟩, ⟨0, 25 / 65, 12 / 13⟩, ⟨3 / 5, -48 / 65, 4 / 13⟩⟩

theorem ex_base0 : baseFromNormal 3 12 4 = .ok (exA0, exA0.transpose) := by
  unfold baseFromNormal
  rw [if_neg (by norm_num)]
  simp only [norm_13.1, norm_5_4.1, V3.smul, V3.cross, M3.transpose, M3.col0, M3.col1, M3.col2, M3.inv, M3.det, V3.dot, exA0]
  norm_num

theorem ex_base1 : baseFromNormal (-3) 12 4 = .ok (exA1, exA1.transpose) := by
  unfold baseFromNormal
  rw [if_neg (by norm_num)]
  simp only [norm_13.2, norm_5_4.2, V3.smul, V3.cross, M3.transpose, M3.col0, M3.col1, M3.col2, M3.inv, M3.det, V3.dot, exA1]
  norm_num

theorem ex_camera (n : V3) : baseCamera [some n, none] = baseFromNormal n.x n.y n.z := by
  simp [baseCamera, nanmean]

/-- The hypotheses of `C67_same_cameras`: two files with the same direction. -/
example : mkStereo [some exN0, none] [some exN0, none] = .error .valueError :=
  C67_same_cameras _ _ (exA0, exA0.transpose) (by rw [ex_camera]; exact ex_base0) (by rw [ex_camera]; exact ex_base0)

/-- An object of the class. -/
theorem ex_stereo : ∃ s, mkStereo [some exN0, none] [some exN1, none] = .ok s ∧ UsesASystem s := by
  have hinv : ∀ m : M3, m.det ≠ 0 → ∃ i, m.inv = .ok i := fun m h => ⟨_, if_neg h⟩
  obtain ⟨i0, h0⟩ := hinv (matM0 exA0.transpose exA1.transpose) (by
    simp only [matM0, exA0, exA1, M3.transpose, M3.col0, M3.col1, M3.col2, M3.det, V3.dot, V3.cross]; norm_num)
  obtain ⟨i1, h1⟩ := hinv (matM1 exA0.transpose exA1.transpose) (by
    simp only [matM1, exA0, exA1, M3.transpose, M3.col0, M3.col1, M3.col2, M3.det, V3.dot, V3.cross]; norm_num)
  obtain ⟨i2, h2⟩ := hinv (matM2 exA0.transpose exA1.transpose) (by
    simp only [matM2, exA0, exA1, M3.transpose, M3.col0, M3.col1, M3.col2, M3.det, V3.dot, V3.cross]; norm_num)
  obtain ⟨i3, h3⟩ := hinv (matM3 exA0.transpose exA1.transpose) (by
    simp only [matM3, exA0, exA1, M3.transpose, M3.col0, M3.col1, M3.col2, M3.det, V3.dot, V3.cross]; norm_num)
  have hclose : ¬ allclose exA0 exA1 := by
    intro h
    have := h (-36 / 65, 36 / 65) (by simp [exA0, exA1, M3.elems])
    simp only at this
    norm_num [abs_of_pos, abs_of_neg] at this
  refine ⟨⟨exA0, exA0.transpose, exA1, exA1.transpose, i0, i1, i2, i3⟩, ?_, ?_⟩
  · unfold mkStereo
    rw [ex_camera, ex_camera]
    simp only [exN0, exN1]
    rw [ex_base0, ex_base1]
    simp only
    rw [if_neg hclose, h0, h1, h2, h3]
  · left
    have hθ : (1 / 2 : ℝ) ≤ threshold := by
      unfold threshold
      rw [← Real.cos_pi_div_three]
      apply Real.cos_le_cos_of_nonneg_of_le_pi
      · positivity
      · have := Real.pi_pos; linarith
      · have := Real.pi_pos; linarith
    constructor
    · refine lt_of_lt_of_le ?_ hθ
      simp only [Stereo.n1, exA0, exA1, V3.dot]
      norm_num [abs_of_pos]
    · refine lt_of_lt_of_le ?_ hθ
      simp only [Stereo.n3, exA0, exA1, V3.dot]
      norm_num

/-- The optical paths of a camera of direction `n`. -/
def exLines (n : V3) : Lines := fun ix iy => some (⟨ix, iy, 0⟩, n)

/-- The measure of a camera for a particle at the origin. -/
noncomputable def exMeasure (n D : V3) : PixDispl := ⟨0, 0, D.x - D.z * n.x / n.z, D.y - D.z * n.y / n.z⟩

theorem ex_measures (n D : V3) (hz : n.z ≠ 0) :
    Measures (exLines n) (0, 0, 1, 0) ⟨D, ⟨0, 0, 0⟩, ⟨0, 0, 0⟩⟩ (exMeasure n D) := by
  refine ⟨⟨0, 0, 0⟩, ?_, ⟨_, _, 0, rfl, ?_⟩, ⟨_, _, D.z / 2 / n.z, rfl, ?_⟩, ⟨_, _, -(D.z / 2 / n.z), rfl, ?_⟩⟩
  · simp [InPlane]
  · simp [exMeasure, V3.add, V3.smul]
  · simp only [exMeasure, V3.add, V3.smul, AffineField.at]
    ext <;> simp only <;> field_simp <;> ring
  · simp only [exMeasure, V3.add, V3.smul, AffineField.at]
    ext <;> simp only <;> field_simp <;> ring

/-- An interpolation defined at the first point only. -/
noncomputable def exInterp : GridData := fun pts vals q => if pts.head? = some q then vals.head? else none

theorem ex_interp : IsLinearInterpolation exInterp := by
  intro pts q
  cases pts with
  | nil => left; intro vals; simp [exInterp]
  | cons p pts =>
    by_cases hq : p = q
    · right
      have hz : ∀ l : List ℝ, (List.zipWith (· * ·) (List.replicate l.length (0 : ℝ)) l).sum = 0 := by
        intro l
        induction l with
        | nil => rfl
        | cons a l ih => simp only [List.length_cons, List.replicate_succ, List.zipWith_cons_cons, List.sum_cons, zero_mul, ih, add_zero]
      refine ⟨1 :: List.replicate pts.length 0, by simp, by simp, ?_, ?_, ?_⟩
      · have := hz (pts.map Prod.fst)
        rw [List.length_map] at this
        simp only [List.map_cons, List.zipWith_cons_cons, List.sum_cons, one_mul, this, add_zero, hq]
      · have := hz (pts.map Prod.snd)
        rw [List.length_map] at this
        simp only [List.map_cons, List.zipWith_cons_cons, List.sum_cons, one_mul, this, add_zero, hq]
      · intro vals hl
        cases vals with
        | nil => simp at hl
        | cons a vals =>
          have hl' : vals.length = pts.length := by simpa using hl
          have := hz vals
          rw [hl'] at this
          simp only [exInterp, List.head?_cons, hq, if_true, List.zipWith_cons_cons, List.sum_cons, one_mul, this, add_zero]
    · left; intro vals; simp [exInterp, hq]

/-- All the hypotheses of `C67_reconstruction_partial` are met, and the displacement `(1, 2, 3)` is found at the origin. -/
example : ∃ s, mkStereo [some exN0, none] [some exN1, none] = .ok s ∧
    s.reconstruct exInterp (measured (exLines exN0) s.B0 (0, 0, 1, 0) [exMeasure exN0 ⟨1, 2, 3⟩])
      (measured (exLines exN1) s.B1 (0, 0, 1, 0) [exMeasure exN1 ⟨1, 2, 3⟩]) (0, 0) = .ok (some (⟨1, 2, 3⟩, ⟨0, 0, 0⟩)) := by
  obtain ⟨s, hs, hu⟩ := ex_stereo
  refine ⟨s, hs, ?_⟩
  have hpar : ∀ n : V3, Parallel (exLines n) n := by
    intro n ix iy p u h
    simp only [exLines, Option.some.injEq, Prod.mk.injEq] at h
    exact ⟨1, one_ne_zero, by rw [← h.2]; simp [V3.smul]⟩
  have hdef : ∀ (n : V3) (B : M3), n.z ≠ 0 →
      (interpCam exInterp (measured (exLines n) B (0, 0, 1, 0) [exMeasure n ⟨1, 2, 3⟩]) (0, 0)).1 ≠ none := by
    intro n B hz
    have hint : ∀ ix iy, intersect (exLines n) ix iy (0, 0, 1, 0) = some ⟨ix, iy, 0⟩ := by
      intro ix iy
      simp only [intersect, exLines]
      rw [if_neg (by simpa using hz)]
      simp [V3.add, V3.smul]
    simp [interpCam, measured, project, applyCalib, hint, valid, exInterp, exMeasure]
  have h := C67_reconstruction_partial _ _ s hs (exLines exN0) (exLines exN1) exN0 exN1 (hpar _) (hpar _) (by simp) (by simp)
    exInterp ex_interp (0, 0, 1, 0) ⟨⟨1, 2, 3⟩, ⟨0, 0, 0⟩, ⟨0, 0, 0⟩⟩ [exMeasure exN0 ⟨1, 2, 3⟩] [exMeasure exN1 ⟨1, 2, 3⟩]
    (by intro m hm; rw [List.mem_singleton] at hm; subst hm; exact ex_measures _ _ (by simp [exN0]))
    (by intro m hm; rw [List.mem_singleton] at hm; subst hm; exact ex_measures _ _ (by simp [exN1])) hu (0, 0)
  have h2 := h.2 (hdef _ _ (by simp [exN0])) (hdef _ _ (by simp [exN1]))
  rw [h2]
  simp [AffineField.at, V3.add, V3.smul]

end Verif
