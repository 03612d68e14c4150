import Verif.Model.Calibration
import Verif.Lemmas.Mat3
import Mathlib.Tactic.Ring
import Mathlib.Tactic.FieldSimp
import Mathlib.Tactic.Linarith
import Mathlib.Tactic.NormNum
import Mathlib.Tactic.Positivity
import Mathlib.Tactic.LinearCombination

/-!
# Calibrations (C52, C53, C54)
-/

namespace Verif
open Verif.Calib

/-! ## C52: simple 2D calibration -/

/-- Physical distance between two points of the image, given as `(indy, indx)`. -/
noncomputable def physDistance (c : Simple) (p q : ℝ × ℝ) : ℝ :=
  Real.sqrt (((c.pix2phys q.2 q.1).1 - (c.pix2phys p.2 p.1).1) ^ 2 + ((c.pix2phys q.2 q.1).2 - (c.pix2phys p.2 p.1).2) ^ 2)

theorem mkSimple_ok (p q o ph : ℝ × ℝ) (distance ar : ℝ) (hne : p ≠ q) (har : 0 < ar) :
    0 < Real.sqrt ((q.1 - p.1) ^ 2 + (ar * (q.2 - p.2)) ^ 2) := by
  apply Real.sqrt_pos.2
  by_cases h1 : q.1 - p.1 = 0
  · have h2 : q.2 - p.2 ≠ 0 := fun h2 => hne (Prod.ext (by linarith) (by linarith))
    have := mul_ne_zero har.ne' h2
    positivity
  · positivity

/-- C52: the calibration exists, and the physical distance between the two points is the given distance exactly when the
pixels are square or the two points are on a diagonal.  (The code applies the aspect ratio to the wrong coordinate, so
the full property fails: `C52_aspect_ratio_fails`.) -/
theorem C52_distance_partial (p q o ph : ℝ × ℝ) (distance ar : ℝ) (hne : p ≠ q) (hd : 0 < distance) (har : 0 < ar) :
    ∃ c, mkSimple p q distance ar o ph = .ok c ∧ c.yphys1pixel = ar * c.xphys1pixel ∧
      c.pix2phys o.2 o.1 = (ph.2, ph.1) ∧
      (physDistance c p q = distance ↔ ar = 1 ∨ |q.1 - p.1| = |q.2 - p.2|) := by
  have hlen := mkSimple_ok p q o ph distance ar hne har
  refine ⟨⟨_, _, _, _, _, _⟩, if_neg hlen.ne', rfl, ?_, ?_⟩
  · simp [Simple.pix2phys]
  · unfold physDistance Simple.pix2phys
    simp only
    set L := Real.sqrt ((q.1 - p.1) ^ 2 + (ar * (q.2 - p.2)) ^ 2) with hL
    have hL2 : L ^ 2 = (q.1 - p.1) ^ 2 + (ar * (q.2 - p.2)) ^ 2 := Real.sq_sqrt (by positivity)
    have e : (ph.2 + distance / L * (q.2 - o.2) - (ph.2 + distance / L * (p.2 - o.2))) ^ 2 +
        (ph.1 + ar * (distance / L) * (q.1 - o.1) - (ph.1 + ar * (distance / L) * (p.1 - o.1))) ^ 2
        = (distance / L) ^ 2 * ((q.2 - p.2) ^ 2 + (ar * (q.1 - p.1)) ^ 2) := by ring
    rw [e, Real.sqrt_eq_iff_mul_self_eq (by positivity) hd.le]
    have e2 : distance * distance = (distance / L) ^ 2 * L ^ 2 := by field_simp
    rw [e2, hL2]
    have hk : (distance / L) ^ 2 ≠ 0 := by positivity
    constructor
    · intro h
      have h1 := mul_left_cancel₀ hk h
      have h2 : (ar - 1) * ((ar + 1) * ((q.2 - p.2) ^ 2 - (q.1 - p.1) ^ 2)) = 0 := by linear_combination -h1
      rcases mul_eq_zero.1 h2 with h3 | h3
      · exact Or.inl (by linarith)
      · rcases mul_eq_zero.1 h3 with h4 | h4
        · exact absurd h4 (by linarith)
        · exact Or.inr (sq_eq_sq_iff_abs_eq_abs _ _ |>.1 (by linarith))
    · intro h
      congr 1
      rcases h with h | h
      · subst h; ring
      · have := sq_eq_sq_iff_abs_eq_abs _ _ |>.2 h
        rw [mul_pow, mul_pow, this]

/-- C52 fails with pixels that are not square: two points on a column of the image, at 1 pixel and at distance 1, pixels
2 times higher than wide. -/
theorem C52_aspect_ratio_fails : ∃ (p q : ℝ × ℝ) (distance ar : ℝ), p ≠ q ∧ 0 < distance ∧ 0 < ar ∧
    ∃ c, mkSimple p q distance ar (0, 0) (0, 0) = .ok c ∧ physDistance c p q ≠ distance := by
  have hne : ((0, 0) : ℝ × ℝ) ≠ (1, 0) := fun h => absurd (congrArg Prod.fst h) (by norm_num)
  obtain ⟨c, hc, _, _, hiff⟩ := C52_distance_partial (0, 0) (1, 0) (0, 0) (0, 0) 1 2 hne one_pos two_pos
  refine ⟨(0, 0), (1, 0), 1, 2, hne, one_pos, two_pos, c, hc, fun h => ?_⟩
  rcases hiff.1 h with h | h
  · norm_num at h
  · norm_num at h

/-- C52: the displacements are converted consistently with the points: the converted displacement is the difference of the
converted positions (also of the ends), for all calibrations, points and displacements. -/
theorem C52_displacement (c : Simple) (ix iy dx dy : ℝ) :
    (c.displ2phys ix iy dx dy).1 = c.pix2phys ix iy ∧
    (c.displ2phys ix iy dx dy).2.1 = (c.pix2phys (ix + dx) (iy + dy)).1 - (c.pix2phys ix iy).1 ∧
    (c.displ2phys ix iy dx dy).2.2 = (c.pix2phys (ix + dx) (iy + dy)).2 - (c.pix2phys ix iy).2 := by
  refine ⟨rfl, ?_, ?_⟩ <;> simp only [Simple.displ2phys, Simple.pix2phys] <;> ring

/-- C52, errors: no calibration with two equal points. -/
theorem C52_equal_points (p o ph : ℝ × ℝ) (distance ar : ℝ) : mkSimple p p distance ar o ph = .error .notFinite := by
  unfold mkSimple
  simp

/-! ## C53: Tsai calibration -/

/-- No slice with an angle is used, or the angles are not used. -/
def Horizontal (p : Tsai) (level : ℕ) (angle : Bool) : Prop :=
  ∃ z, slicePlane p level angle = .ok (z, none)

/-- The centre of the camera is not in the (virtual) plane of the slice: the plane is not seen as a line. -/
def NotSeenAsLine (R : M3) (T : V3) (z : ℝ) : Prop :=
  (M3.transpose ⟨R.col0, R.col1, camera R T ⟨0, 0, z⟩⟩).det ≠ 0

theorem solvePlane_camera (R : M3) (T : V3) (z Xu Yu x y : ℝ) (h : solvePlane R T z Xu Yu = .ok (x, y)) :
    (camera R T ⟨x, y, z⟩).x = Xu * (camera R T ⟨x, y, z⟩).z ∧
    (camera R T ⟨x, y, z⟩).y = Yu * (camera R T ⟨x, y, z⟩).z ∧
    (NotSeenAsLine R T z → (camera R T ⟨x, y, z⟩).z ≠ 0) := by
  obtain ⟨⟨R0, R1, R2⟩, ⟨R3, R4, R5⟩, ⟨R6, R7, R8⟩⟩ := R
  obtain ⟨Tx, Ty, Tz⟩ := T
  unfold solvePlane at h
  simp only at h
  split at h
  · exact absurd h (by simp)
  · rename_i hden
    simp only [Except.ok.injEq, Prod.mk.injEq] at h
    obtain ⟨hx, hy⟩ := h
    rw [div_eq_iff hden] at hx hy
    simp only [camera, M3.mulVec, V3.dot, V3.add]
    refine ⟨?_, ?_, ?_⟩
    · apply mul_right_cancel₀ hden
      linear_combination (-(R0 - Xu * R6)) * hx + (-(R1 - Xu * R7)) * hy
    · apply mul_right_cancel₀ hden
      linear_combination (-(R3 - Yu * R6)) * hx + (-(R4 - Yu * R7)) * hy
    · intro hdet hz
      apply hdet
      simp only [M3.transpose, M3.col0, M3.col1, M3.col2, M3.det, V3.dot, V3.cross, camera, M3.mulVec, V3.add]
      have h2 := congrArg (· * ((R4 * R6 - R3 * R7) * Xu + (R0 * R7 - R1 * R6) * Yu + (R1 * R3 - R0 * R4))) hz
      simp only [zero_mul] at h2
      linear_combination -h2 + (-R6) * hx + (-R7) * hy

/-- C53: without distortion and for an horizontal slice, a pixel converted to physical coordinates and back is the same
pixel, with `y` counted from the other side of the image; with or without refraction, rotation, focal lengths... -/
theorem C53_round_trip_partial (p : Tsai) (X Y : ℝ) (level : ℕ) (nbypix : ℝ) (angle : Bool) (v : V3) (r : ℝ × ℝ)
    (hkc : p.kc = none ∨ p.kc = some 0) (hh : Horizontal p level angle)
    (h1 : pix2phys p X Y level nbypix angle = .ok v) (h2 : phys2pix p v = .ok r) : r = (X, nbypix - Y) := by
  obtain ⟨z, hz⟩ := hh
  have hk : p.kc' = 0 := by rcases hkc with h | h <;> simp [Tsai.kc', h]
  unfold pix2phys at h1
  rw [hz] at h1
  simp only at h1
  split at h1
  · exact absurd h1 (by simp)
  · rename_i hrefr
    unfold phys2pix at h2
    simp only [hrefr, if_false] at h2
    cases hR : p.R with
    | none =>
      rw [hR] at h1 h2
      simp only at h1 h2
      split at h1
      · exact absurd h1 (by simp)
      · rename_i hf
        rw [not_or] at hf
        cases h1
        cases h2
        have f1 := hf.1
        have f2 := hf.2
        ext
        · simp only; field_simp; ring
        · simp only; field_simp; ring
    | some R =>
      rw [hR] at h1 h2
      simp only at h1 h2
      unfold undistort at h1
      simp only [hk, zero_mul, add_zero, div_one, one_ne_zero, if_false] at h1
      split at h1
      · exact absurd h1 (by simp)
      · rename_i e he
        split at he
        · exact absurd he (by simp)
        · rename_i hf
          rw [not_or] at hf
          simp only [Except.ok.injEq, Prod.mk.injEq] at he
          obtain ⟨hXu, hYu⟩ := he
          split at h1
          · exact absurd h1 (by simp)
          · rename_i x y hs
            cases h1
            obtain ⟨c1, c2, _⟩ := solvePlane_camera R p.T' _ _ _ x y hs
            simp only [div_mul_cancel₀ _ (show (100 : ℝ) ≠ 0 by norm_num)] at h2
            split at h2
            · exact absurd h2 (by simp)
            · rename_i hcz
              simp only [hk, zero_mul, add_zero, mul_one, Except.ok.injEq] at h2
              rw [c1, c2, mul_div_assoc, div_self hcz, mul_div_assoc, div_self hcz, mul_one, mul_one, ← hXu, ← hYu] at h2
              rw [← h2]
              have f1 := hf.1
              have f2 := hf.2
              ext
              · simp only; field_simp; ring
              · simp only; field_simp; ring

/-- C53: the way back is defined when the plane of the slice is not seen as a line. -/
theorem C53_way_back_defined (p : Tsai) (R : M3) (X Y : ℝ) (level : ℕ) (nbypix : ℝ) (angle : Bool) (v : V3) (z : ℝ)
    (hR : p.R = some R) (hh : slicePlane p level angle = .ok (z, none))
    (hline : NotSeenAsLine R p.T' (virtualZ p z).1)
    (h1 : pix2phys p X Y level nbypix angle = .ok v) : ∃ r, phys2pix p v = .ok r := by
  unfold pix2phys at h1
  rw [hh] at h1
  simp only at h1
  split at h1
  · exact absurd h1 (by simp)
  · rename_i hrefr
    unfold phys2pix
    simp only [hrefr, if_false]
    rw [hR] at h1 ⊢
    simp only at h1 ⊢
    split at h1
    · exact absurd h1 (by simp)
    · split at h1
      · exact absurd h1 (by simp)
      · rename_i Xu Yu _ _ x y hs
        cases h1
        obtain ⟨_, _, c3⟩ := solvePlane_camera R p.T' _ _ _ x y hs
        simp only [div_mul_cancel₀ _ (show (100 : ℝ) ≠ 0 by norm_num)]
        rw [if_neg (c3 hline)]
        exact ⟨_, rfl⟩

/-- A camera at height 10, looking down (with a rotation of 90° around z), a slice at height 1 in water. -/
noncomputable def exTsai : Tsai :=
  ⟨some (100, 200), some ⟨0, 0, 10⟩, some (50, 60), some 0, some ⟨⟨0, 1, 0⟩, ⟨-1, 0, 0⟩, ⟨0, 0, 1⟩⟩, some ⟨0, 0, 2⟩,
    some (4 / 3), some (.zeros, [⟨0, 0, 1⟩])⟩

theorem exTsai_plane : slicePlane exTsai 0 true = .ok (1, none) := by
  simp [slicePlane, exTsai, sliceAngle]

/-- Non-vacuity of the theorems on the round trip. -/
example : (exTsai.kc = none ∨ exTsai.kc = some 0) ∧ Horizontal exTsai 0 true ∧
    (∃ v, pix2phys exTsai 70 80 0 500 true = .ok v ∧ ∃ r, phys2pix exTsai v = .ok r) := by
  refine ⟨Or.inr rfl, ⟨1, exTsai_plane⟩, ?_⟩
  have h : ∃ v, pix2phys exTsai 70 80 0 500 true = .ok v := by
    unfold pix2phys
    rw [exTsai_plane]
    simp only [exTsai, undistort, solvePlane, Tsai.f', Tsai.kc', Tsai.C', Tsai.T', virtualZ, Option.getD_some,
      Option.some.injEq]
    norm_num
  obtain ⟨v, hv⟩ := h
  refine ⟨v, hv, C53_way_back_defined exTsai _ 70 80 0 500 true v 1 rfl exTsai_plane ?_ hv⟩
  simp only [NotSeenAsLine, exTsai, virtualZ, Tsai.T', Option.getD_some, M3.transpose, M3.col0, M3.col1, M3.col2, M3.det,
    V3.dot, V3.cross, camera, M3.mulVec, V3.add]
  norm_num

/-- C53: for a tilted slice and no refraction above it, the conversion always fails (`UnboundLocalError`). -/
theorem C53_tilted_fails (p : Tsai) (R : M3) (X Y : ℝ) (level : ℕ) (nbypix : ℝ) (z : ℝ) (n : V3) (hR : p.R = some R)
    (ht : slicePlane p level true = .ok (z, some n)) (hn : p.refraction ≠ some 0)
    (hrefr : p.interface = none ∨ p.refraction = none ∨ ∃ i, p.interface = some i ∧ i.z ≤ z) :
    pix2phys p X Y level nbypix true = .error .unboundLocal := by
  have hv : (virtualZ p z).2 = false := by
    unfold virtualZ
    rcases hrefr with h | h | ⟨i, h, hi⟩
    · rw [h]
    · rw [h]; cases p.interface <;> rfl
    · rw [h]
      cases p.refraction with
      | none => rfl
      | some m => simp only; rw [if_neg (by linarith)]
  unfold pix2phys
  rw [ht]
  simp only [hn, if_false]
  rw [hR]
  simp only
  unfold slopes
  rw [hv]

/-- Non-vacuity: a slice with an angle of 90° around z, without refraction. -/
example : ∃ z n, slicePlane ⟨none, none, none, none, some M3.one, none, none, some (.rows [⟨0, 0, 90⟩], [⟨0, 0, 1⟩])⟩ 0 true
    = .ok (z, some n) := by
  have hn : V3.norm ⟨0, 0, 90⟩ = 90 := by
    unfold V3.norm
    rw [show ((0 : ℝ) ^ 2 + 0 ^ 2 + 90 ^ 2) = 90 ^ 2 by norm_num, Real.sqrt_sq (by norm_num)]
  refine ⟨1, ⟨0, 0, 1⟩, ?_⟩
  have hp : normPlane ⟨0, 0, 90⟩ = ⟨0, 0, 1⟩ := by
    unfold normPlane
    simp only [hn, V3.smul]
    norm_num
  simp [slicePlane, sliceAngle, hp, V3.dot]

/-- C53: with more than 3 slices without angles, the conversion fails for the slices after the third. -/
theorem C53_fourth_slice_fails (p : Tsai) (X Y : ℝ) (level : ℕ) (nbypix : ℝ) (angle : Bool) (coords : List V3)
    (hs : p.slices = some (.zeros, coords)) (hl : 3 ≤ level) :
    pix2phys p X Y level nbypix angle = .error .indexError := by
  unfold pix2phys slicePlane
  rw [hs]
  simp only [sliceAngle]
  rw [if_neg (by omega)]

/-- A camera with radial distortion. -/
noncomputable def distTsai : Tsai := ⟨none, none, none, some 1, some M3.one, none, none, some (.zeros, [⟨0, 0, 0⟩])⟩

/-- C53 fails with distortion: the two conversions use two formulas that are not inverse of each other. -/
theorem C53_distortion_fails : ∃ (p : Tsai) (X Y nbypix : ℝ) (v : V3) (r : ℝ × ℝ), Horizontal p 0 true ∧
    pix2phys p X Y 0 nbypix true = .ok v ∧ phys2pix p v = .ok r ∧ r ≠ (X, nbypix - Y) := by
  have hz : slicePlane distTsai 0 true = .ok (0, none) := by simp [slicePlane, distTsai, sliceAngle]
  have hv : pix2phys distTsai 1 0 0 0 true = .ok ⟨1 / 2 / 100, 0, 0⟩ := by
    unfold pix2phys
    rw [hz]
    simp only [distTsai, undistort, solvePlane, Tsai.f', Tsai.kc', Tsai.C', Tsai.T', virtualZ, Option.getD_some,
      Option.getD_none, M3.one, reduceCtorEq, if_false]
    norm_num
  refine ⟨distTsai, 1, 0, 0, ⟨1 / 2 / 100, 0, 0⟩, (5 / 8, 0), ⟨0, hz⟩, hv, ?_, ?_⟩
  · unfold phys2pix
    simp only [distTsai, Tsai.f', Tsai.kc', Tsai.C', Tsai.T', virtualZ, Option.getD_some,
      Option.getD_none, reduceCtorEq, if_false, M3.one, camera, M3.mulVec, V3.dot, V3.add]
    norm_num
  · intro h
    have := congrArg Prod.fst h
    norm_num at this

/-- A slice with an angle of 45° around x, below a surface with refraction index 2. -/
noncomputable def tiltTsai : Tsai :=
  ⟨none, none, none, none, some M3.one, some ⟨0, 0, 1⟩, some 2, some (.rows [⟨45, 0, 0⟩], [⟨0, 0, 0⟩])⟩

theorem normPlane_45 : normPlane ⟨45, 0, 0⟩ = ⟨0, -(Real.sqrt 2 / 2), Real.sqrt 2 / 2⟩ := by
  have hn : V3.norm ⟨45, 0, 0⟩ = 45 := by
    unfold V3.norm
    rw [show ((45 : ℝ) ^ 2 + 0 ^ 2 + 0 ^ 2) = 45 ^ 2 by norm_num, Real.sqrt_sq (by norm_num)]
  unfold normPlane
  simp only [hn, V3.smul]
  rw [show Real.pi * 45 / 180 = Real.pi / 4 by ring, Real.cos_pi_div_four, Real.sin_pi_div_four]
  norm_num

/-- C53 fails for tilted slices with refraction: the returned position is not in the slice (the slope is divided by the
refraction index) and the way back gives another pixel. -/
theorem C53_tilted_refraction_fails : ∃ (v : V3) (r : ℝ × ℝ), pix2phys tiltTsai 0 0 0 (1 / 2) true = .ok v ∧
    (normPlane ⟨45, 0, 0⟩).dot v ≠ 0 ∧ phys2pix tiltTsai v = .ok r ∧ r ≠ (0, 1 / 2) := by
  have h2 : Real.sqrt 2 / 2 ≠ 0 := by positivity
  have hz : slicePlane tiltTsai 0 true = .ok (0, some ⟨0, -(Real.sqrt 2 / 2), Real.sqrt 2 / 2⟩) := by
    simp [slicePlane, tiltTsai, sliceAngle, normPlane_45, V3.dot]
  have hv : pix2phys tiltTsai 0 0 0 (1 / 2) true = .ok ⟨0, 1 / 100, 1 / 2 / 100⟩ := by
    unfold pix2phys
    rw [hz]
    simp only [tiltTsai, undistort, solvePlane, Tsai.f', Tsai.kc', Tsai.C', Tsai.T', virtualZ, Option.getD_some,
      Option.getD_none, M3.one, slopes, tiltMatrix, neg_neg, div_self h2]
    norm_num
  refine ⟨_, (0, 4 / 7), hv, ?_, ?_, ?_⟩
  · rw [normPlane_45]
    simp only [V3.dot]
    have : (0 : ℝ) < Real.sqrt 2 := by positivity
    intro h
    linarith
  · unfold phys2pix
    simp only [tiltTsai, Tsai.f', Tsai.kc', Tsai.C', Tsai.T', virtualZ, Option.getD_some,
      Option.getD_none, M3.one, camera, M3.mulVec, V3.dot, V3.add]
    norm_num
  · intro h
    have := congrArg Prod.snd h
    norm_num at this

/-- C53: the conversion to pixels multiplies by 100 the arrays given by the caller; they are unchanged only if all their
elements are zero. -/
theorem C53_arguments_modified_fails (xs ys : List ℝ) :
    (∀ i : Nat, (phys2pixArguments xs ys).1[i]? = xs[i]?.map (fun x : ℝ => 100 * x) ∧
      (phys2pixArguments xs ys).2[i]? = ys[i]?.map (fun y : ℝ => 100 * y)) ∧
    (phys2pixArguments xs ys = (xs, ys) ↔ (∀ x ∈ xs, x = 0) ∧ ∀ y ∈ ys, y = 0) := by
  have key : ∀ l : List ℝ, l.map (· * 100) = l ↔ ∀ x ∈ l, x = 0 := by
    intro l
    induction l with
    | nil => simp
    | cons a l ih =>
      rw [List.map_cons, List.cons.injEq, ih, List.forall_mem_cons]
      exact and_congr_left' ⟨fun h => by linarith, fun h => by rw [h]; norm_num⟩
  refine ⟨fun i => ?_, ?_⟩
  · simp only [phys2pixArguments, List.getElem?_map, mul_comm (100 : ℝ), and_self]
  · unfold phys2pixArguments
    rw [Prod.mk.injEq, key, key]

example : phys2pixArguments [1] [2] ≠ ([1], [2]) := fun h => by
  have := ((C53_arguments_modified_fails [1] [2]).2.1 h).1 1 (by simp)
  norm_num at this

/-! ## C54: planes, bases, intersections -/

theorem V3.norm_sq (v : V3) : v.norm ^ 2 = v.dot v := by
  unfold V3.norm V3.dot
  rw [Real.sq_sqrt (by positivity)]
  ring

/-- C54: the base is orthonormal and direct, its third vector is the normal divided by its norm, its first vector has no
`y` component and a positive `x` component, and the second matrix is the inverse of the first one (its transpose). -/
theorem C54_base (nx ny nz : ℝ) (hnz : nz ≠ 0) :
    ∃ A B, baseFromNormal nx ny nz = .ok (A, B) ∧
      A.col0.dot A.col0 = 1 ∧ A.col1.dot A.col1 = 1 ∧ A.col2.dot A.col2 = 1 ∧
      A.col0.dot A.col1 = 0 ∧ A.col1.dot A.col2 = 0 ∧ A.col0.dot A.col2 = 0 ∧ A.det = 1 ∧
      A.col1 = A.col2.cross A.col0 ∧
      V3.smul (V3.norm ⟨nx, ny, nz⟩) A.col2 = ⟨nx, ny, nz⟩ ∧
      A.col0.y = 0 ∧ 0 < A.col0.x ∧
      B.mul A = M3.one ∧ A.mul B = M3.one ∧ B = A.transpose := by
  set n : V3 := ⟨nx, ny, nz⟩ with hn
  set ex' : V3 := ⟨1, 0, -(1 * nx + 0 * ny) / nz⟩ with hex
  have hz2 : 0 < nz ^ 2 := by positivity
  have hN : 0 < n.norm := Real.sqrt_pos.2 (by simp only [hn]; positivity)
  have hE : 0 < ex'.norm := Real.sqrt_pos.2 (by simp only [hex]; positivity)
  have hN2 : n.norm ^ 2 = nx * nx + ny * ny + nz * nz := V3.norm_sq n
  have hE2 : ex'.norm ^ 2 = 1 + (nx / nz) ^ 2 := by
    rw [V3.norm_sq]; simp only [hex, V3.dot]; ring
  set N := n.norm
  set E := ex'.norm
  -- inverses
  obtain ⟨k, hk⟩ : ∃ k, k = 1 / N := ⟨_, rfl⟩
  obtain ⟨l, hl⟩ : ∃ l, l = 1 / E := ⟨_, rfl⟩
  obtain ⟨s, hs⟩ : ∃ s, s = nx / nz := ⟨_, rfl⟩
  have hk1 : k ^ 2 * (nx * nx + ny * ny + nz * nz) = 1 := by rw [← hN2, hk]; field_simp
  have hl1 : l ^ 2 * (1 + s ^ 2) = 1 := by rw [hs, ← hE2, hl]; field_simp
  have hs1 : s * nz = nx := by rw [hs]; field_simp
  have hez : V3.smul (1 / N) n = ⟨k * nx, k * ny, k * nz⟩ := by rw [← hk]; rfl
  have hex2 : V3.smul (1 / E) ex' = ⟨l, 0, -(l * s)⟩ := by
    rw [← hl, hs]
    simp only [V3.smul, hex]
    ext <;> simp only <;> ring
  set A := M3.transpose ⟨V3.smul (1 / E) ex', (V3.smul (1 / N) n).cross (V3.smul (1 / E) ex'), V3.smul (1 / N) n⟩ with hA
  have c0 : A.col0 = ⟨l, 0, -(l * s)⟩ := by rw [hA, hex2]; rfl
  have c2 : A.col2 = ⟨k * nx, k * ny, k * nz⟩ := by rw [hA, hez]; rfl
  have c1 : A.col1 = ⟨-(k * ny * (l * s)), k * nz * l + k * nx * (l * s), -(k * ny * l)⟩ := by
    rw [hA, hex2, hez]
    simp only [M3.transpose, M3.col0, M3.col1, M3.col2, V3.cross]
    ext <;> simp only <;> ring
  have d00 : A.col0.dot A.col0 = 1 := by rw [c0]; simp only [V3.dot]; linear_combination hl1
  have d22 : A.col2.dot A.col2 = 1 := by rw [c2]; simp only [V3.dot]; linear_combination hk1
  have d02 : A.col0.dot A.col2 = 0 := by
    rw [c0, c2]; simp only [V3.dot]; linear_combination (-(l * k)) * hs1
  have d01 : A.col0.dot A.col1 = 0 := by rw [c0, c1]; simp only [V3.dot]; ring
  have d12 : A.col1.dot A.col2 = 0 := by
    rw [c1, c2]; simp only [V3.dot]; ring
  have d11 : A.col1.dot A.col1 = 1 := by
    have e1 : A.col1.dot A.col1 = (k ^ 2 * (nx * nx + ny * ny + nz * nz)) * (l ^ 2 * (1 + s ^ 2)) - (l * k * (nx - s * nz)) ^ 2 := by
      rw [c1]; simp only [V3.dot]; ring
    rw [e1, hk1, hl1, hs1]; ring
  have rows : A.r0 = ⟨A.col0.x, A.col1.x, A.col2.x⟩ ∧ A.r1 = ⟨A.col0.y, A.col1.y, A.col2.y⟩ ∧
      A.r2 = ⟨A.col0.z, A.col1.z, A.col2.z⟩ := ⟨rfl, rfl, rfl⟩
  have hdet : A.det = 1 := by
    have e1 : A.det = (k ^ 2 * (nx * nx + ny * ny + nz * nz)) * (l ^ 2 * (1 + s ^ 2)) - (l * k * (nx - s * nz)) ^ 2 := by
      unfold M3.det
      rw [rows.1, rows.2.1, rows.2.2, c0, c1, c2]
      simp only [V3.dot, V3.cross]; ring
    rw [e1, hk1, hl1, hs1]; ring
  have hTA : A.transpose.mul A = M3.one := by
    ext <;> simp only [M3.mul, M3.transpose, M3.one]
    · exact d00
    · exact d01
    · exact d02
    · rw [← d01]; simp only [V3.dot]; ring
    · exact d11
    · exact d12
    · rw [← d02]; simp only [V3.dot]; ring
    · rw [← d12]; simp only [V3.dot]; ring
    · exact d22
  obtain ⟨B, hB⟩ : ∃ B, A.inv = .ok B := by
    unfold M3.inv
    rw [if_neg (by rw [hdet]; exact one_ne_zero)]
    exact ⟨_, rfl⟩
  have hspec := M3.inv_spec A B hB
  refine ⟨A, B, ?_, d00, d11, d22, d01, d12, d02, hdet, rfl, ?_, ?_, ?_, hspec.1, hspec.2, M3.inv_eq A B _ hB hTA⟩
  · unfold baseFromNormal
    rw [if_neg hnz]
    simp only
    rw [hB]
  · rw [c2, hk]
    simp only [V3.smul, hn]
    ext <;> simp only <;> field_simp
  · rw [c0]
  · rw [c0, hl]; simp only; positivity

/-- Points of the plane `a x + b y + c z + d = 0`. -/
def InPlane (e : ℝ × ℝ × ℝ × ℝ) (v : V3) : Prop := e.1 * v.x + e.2.1 * v.y + e.2.2.1 * v.z + e.2.2.2 = 0

/-- Rotation around the x axis. -/
noncomputable def rotX (t : ℝ) : M3 := ⟨⟨1, 0, 0⟩, ⟨0, Real.cos t, -Real.sin t⟩, ⟨0, Real.sin t, Real.cos t⟩⟩

/-- Rotation around the y axis. -/
noncomputable def rotY (t : ℝ) : M3 := ⟨⟨Real.cos t, 0, Real.sin t⟩, ⟨0, 1, 0⟩, ⟨-Real.sin t, 0, Real.cos t⟩⟩

/-- C54: the equation is refused exactly when the two angles are not zero.  It is the equation of the horizontal plane at
height 0, rotated around the x axis or the y axis, and then translated by `z0` in the direction z; the normal vector has
norm 1. -/
theorem C54_plane (z0 alpha beta : ℝ) :
    (alpha ≠ 0 ∧ beta ≠ 0 → planeEquation z0 alpha beta = .error .valueError) ∧
    (alpha = 0 ∨ beta = 0 → ∃ e, planeEquation z0 alpha beta = .ok e ∧ e.1 ^ 2 + e.2.1 ^ 2 + e.2.2.1 ^ 2 = 1 ∧
      ∀ v, InPlane e v ↔ ∃ x y, v = (((rotX alpha).mul (rotY beta)).mulVec ⟨x, y, 0⟩).add ⟨0, 0, z0⟩) := by
  constructor
  · intro h
    exact if_pos h
  · intro h
    refine ⟨_, if_neg (fun hc => h.elim hc.1 hc.2), ?_, ?_⟩
    · simp only
      have h1 := Real.sin_sq_add_cos_sq alpha
      have h2 := Real.sin_sq_add_cos_sq beta
      linear_combination h2 + Real.cos beta ^ 2 * h1
    · intro v
      obtain ⟨vx, vy, vz⟩ := v
      have h1 := Real.sin_sq_add_cos_sq alpha
      have h2 := Real.sin_sq_add_cos_sq beta
      simp only [InPlane, rotX, rotY, M3.mul, M3.mulVec, V3.add, V3.dot, M3.col0, M3.col1, M3.col2, V3.mk.injEq]
      generalize Real.sin alpha = sa at *
      generalize Real.cos alpha = ca at *
      generalize Real.sin beta = sb at *
      generalize Real.cos beta = cb at *
      constructor
      · intro hp
        refine ⟨cb * vx + sb * sa * vy - sb * ca * (vz - z0), ca * vy + sa * (vz - z0), ?_, ?_, ?_⟩
        · linear_combination (-vx) * h2 + sb * hp
        · linear_combination (-(sa * cb)) * hp + (-vy) * h1 + (-(vy * sa ^ 2) + sa * ca * (vz - z0)) * h2
        · linear_combination (ca * cb) * hp + (-(vz - z0)) * h1 + (-((vz - z0) * ca ^ 2) + sa * ca * vy) * h2
      · rintro ⟨x, y, e1, e2, e3⟩
        rw [e1, e2, e3]
        linear_combination (-(sb * cb * x)) * h1

end Verif
