import Verif.Model.Calibration
import Mathlib.Algebra.Order.Floor.Ring

/-!
# Model of the direct stereo reconstruction

`/repo/src/fluidimage/calibration/calib_direct.py` 272-309 (`CalibDirect`), 405-680 (`DirectStereoReconstruction`).

Real numbers instead of floats, `none` for NaN.  The interpolation objects (scipy) are functions.  The determination of
the optical paths from the calibration images (107-252) is in `Model/DirectCalib.lean`.
-/

namespace Verif.Calib

/-- 276-281: the optical path of a pixel: a point and a vector.  The six interpolations are NaN together (173-179,
209-211). -/
abbrev Lines := ℝ → ℝ → Option (V3 × V3)

/-- 272-286 `intersect_with_plane`, with the plane `(a, b, c, d)`. -/
noncomputable def intersect (L : Lines) (indx indy : ℝ) (e : ℝ × ℝ × ℝ × ℝ) : Option V3 :=
  match L indx indy with
  | none => none
  | some (p, u) =>
    let den := e.1 * u.x + e.2.1 * u.y + e.2.2.1 * u.z
    if den = 0 then none
    else
      let t := -(e.1 * p.x + e.2.1 * p.y + e.2.2.1 * p.z + e.2.2.2) / den
      some (p.add (u.smul t))

/-- 288-297 `apply_calib` -/
noncomputable def applyCalib (L : Lines) (indx indy dx dy : ℝ) (e : ℝ × ℝ × ℝ × ℝ) : Option V3 :=
  match intersect L (indx + dx / 2) (indy + dy / 2) e, intersect L (indx - dx / 2) (indy - dy / 2) e with
  | some p, some q => some (p.sub q)
  | _, _ => none

/-- `np.nanmean` of numbers. -/
noncomputable def nanmean (l : List (Option ℝ)) : Option ℝ :=
  match l.filterMap id with
  | [] => none
  | v => some (v.sum / v.length)

/-- 299-309 `get_base_camera_plane`, with the directions of the optical paths of the pixels. -/
noncomputable def baseCamera (dirs : List (Option V3)) : Except Err (M3 × M3) :=
  match nanmean (dirs.map (Option.map V3.x)), nanmean (dirs.map (Option.map V3.y)), nanmean (dirs.map (Option.map V3.z)) with
  | some dx, some dy, some dz => baseFromNormal dx dy dz
  | _, _, _ => .error .notFinite

/-- The elements of a matrix. -/
def M3.elems (m : M3) : List ℝ := [m.r0.x, m.r0.y, m.r0.z, m.r1.x, m.r1.y, m.r1.z, m.r2.x, m.r2.y, m.r2.z]

/-- `np.allclose(a, b)` with the default tolerances. -/
def allclose (a b : M3) : Prop := ∀ q ∈ a.elems.zip b.elems, |q.1 - q.2| ≤ 1 / 10 ^ 8 + 1 / 10 ^ 5 * |q.2|

/-- 419-433: attributes of `DirectStereoReconstruction`. -/
structure Stereo where
  A0 : M3
  B0 : M3
  A1 : M3
  B1 : M3
  invM0 : M3
  invM1 : M3
  invM2 : M3
  invM3 : M3

/-- 430 -/
def matM0 (B0 B1 : M3) : M3 := ⟨B0.r0, B0.r1, B1.r0⟩
/-- 431 -/
def matM1 (B0 B1 : M3) : M3 := ⟨B0.r0, B1.r0, B1.r1⟩
/-- 432 -/
def matM2 (B0 B1 : M3) : M3 := ⟨B0.r0, B0.r1, B1.r1⟩
/-- 433 -/
def matM3 (B0 B1 : M3) : M3 := ⟨B0.r1, B1.r0, B1.r1⟩

open Classical in
/-- 419-433 `DirectStereoReconstruction.__init__`, with the directions of the pixels of the two cameras. -/
noncomputable def mkStereo (dirs0 dirs1 : List (Option V3)) : Except Err Stereo :=
  match baseCamera dirs0 with
  | .error e => .error e
  | .ok (A0, B0) =>
    match baseCamera dirs1 with
    | .error e => .error e
    | .ok (A1, B1) =>
      if allclose A0 A1 then .error .valueError
      else
        match (matM0 B0 B1).inv with
        | .error e => .error e
        | .ok i0 =>
          match (matM1 B0 B1).inv with
          | .error e => .error e
          | .ok i1 =>
            match (matM2 B0 B1).inv with
            | .error e => .error e
            | .ok i2 =>
              match (matM3 B0 B1).inv with
              | .error e => .error e
              | .ok i3 => .ok ⟨A0, B0, A1, B1, i0, i1, i2, i3⟩

/-- A displacement in pixels measured by a camera: position and displacement. -/
structure PixDispl where
  ix : ℝ
  iy : ℝ
  dx : ℝ
  dy : ℝ

/-- 455-466 `project2cam`, for one camera and one vector: the position in the plane, and the displacement in the base of
the camera. -/
noncomputable def project (L : Lines) (B : M3) (e : ℝ × ℝ × ℝ × ℝ) (m : PixDispl) : Option V3 × Option (ℝ × ℝ) :=
  (intersect L m.ix m.iy e,
    match applyCalib L m.ix m.iy m.dx m.dy e with
    | none => none
    | some v => some ((B.mulVec v).x, (B.mulVec v).y))

/-- 558-569: `scipy.interpolate.griddata`: points, values, and point where the interpolation is computed; NaN outside of
the convex hull of the points. -/
abbrev GridData := List (ℝ × ℝ) → List ℝ → ℝ × ℝ → Option ℝ

/-- 545-556: the vectors without NaN. -/
def valid (l : List (Option V3 × Option (ℝ × ℝ))) : List (V3 × (ℝ × ℝ)) :=
  l.filterMap fun q =>
    match q.1, q.2 with
    | some p, some d => some (p, d)
    | _, _ => none

/-- 558-569: the two components of one camera at a point of the grid. -/
def interpCam (g : GridData) (l : List (Option V3 × Option (ℝ × ℝ))) (q : ℝ × ℝ) : Option ℝ × Option ℝ :=
  (g ((valid l).map fun r => (r.1.x, r.1.y)) ((valid l).map fun r => r.2.1) q,
    g ((valid l).map fun r => (r.1.x, r.1.y)) ((valid l).map fun r => r.2.2) q)

/-- `np.tensordot(inv, dcam)` at one point: NaN if one of the numbers is NaN. -/
def solve3 (i : M3) (a b c : Option ℝ) : Option V3 :=
  match a, b, c with
  | some a, some b, some c => some (i.mulVec ⟨a, b, c⟩)
  | _, _, _ => none

/-- 594: the threshold of 5 degrees (in fact 10). -/
noncomputable def threshold : ℝ := Real.cos (5 * 2 * Real.pi / 180)

/-- 589-592 -/
def Stereo.n1 (s : Stereo) : ℝ := |s.A0.r0.dot s.A1.r0|
def Stereo.n2 (s : Stereo) : ℝ := |s.A0.r1.dot s.A1.r1|
def Stereo.n3 (s : Stereo) : ℝ := |s.A0.r1.dot s.A1.r0|
def Stereo.n4 (s : Stereo) : ℝ := |s.A0.r0.dot s.A1.r1|

/-- 596-617: the solutions of the systems that are used. -/
noncomputable def Stereo.solutions (s : Stereo) (d0 d1 : Option ℝ × Option ℝ) : List (Option V3) :=
  (if s.n1 < threshold ∧ s.n3 < threshold then [solve3 s.invM0 d0.1 d0.2 d1.1] else []) ++
  (if s.n1 < threshold ∧ s.n4 < threshold then [solve3 s.invM1 d0.1 d1.1 d1.2] else []) ++
  (if s.n2 < threshold ∧ s.n4 < threshold then [solve3 s.invM2 d0.1 d0.2 d1.2] else []) ++
  (if s.n2 < threshold ∧ s.n3 < threshold then [solve3 s.invM3 d0.2 d1.1 d1.2] else [])

/-- 620-622: mean and standard deviation of the numbers that are not NaN. -/
noncomputable def meanStd (l : List ℝ) : ℝ × ℝ :=
  let m := l.sum / l.length
  (m, Real.sqrt ((l.map fun x => (x - m) ^ 2).sum / l.length))

/-- 618-625: mean and standard deviation of the solutions; without any system the unpacking fails (`TypeError`). -/
noncomputable def combine (l : List (Option V3)) : Except Err (Option (V3 × V3)) :=
  match l with
  | [] => .error .typeError
  | _ =>
    match l.filterMap id with
    | [] => .ok none
    | v =>
      let x := meanStd (v.map V3.x)
      let y := meanStd (v.map V3.y)
      let z := meanStd (v.map V3.z)
      .ok (some (⟨x.1, y.1, z.1⟩, ⟨x.2, y.2, z.2⟩))

/-- 572-680 `reconstruction`, at one point of the grid: the displacement and the error. -/
noncomputable def Stereo.reconstruct (s : Stereo) (g : GridData) (l0 l1 : List (Option V3 × Option (ℝ × ℝ))) (q : ℝ × ℝ) :
    Except Err (Option (V3 × V3)) :=
  combine (s.solutions (interpCam g l0 q) (interpCam g l1 q))

/-! ## Common grid -/

/-- `np.nanmin` of the numbers that are not NaN (no such number: NaN, and then an error at 531). -/
noncomputable def minList : List ℝ → Option ℝ
  | [] => none
  | [a] => some a
  | a :: l => (minList l).map (min a)

/-- `np.nanmax` -/
noncomputable def maxList : List ℝ → Option ℝ
  | [] => none
  | [a] => some a
  | a :: l => (maxList l).map (max a)

/-- 499-506: limits of the positions seen by a camera. -/
structure Box where
  xmin : ℝ
  xmax : ℝ
  ymin : ℝ
  ymax : ℝ

/-- 499-506 -/
noncomputable def box (l : List V3) : Except Err Box :=
  match minList (l.map V3.x), maxList (l.map V3.x), minList (l.map V3.y), maxList (l.map V3.y) with
  | some a, some b, some c, some d => .ok ⟨a, b, c, d⟩
  | _, _, _, _ => .error .valueError

/-- 513-526: distances between the points, for one camera with `n` positions. -/
noncomputable def spacing (b : Box) (n : ℕ) : Except Err (ℝ × ℝ) :=
  let Lx := b.xmax - b.xmin
  let Ly := b.ymax - b.ymin
  if Lx = 0 ∨ Ly = 0 ∨ n = 0 then .error .notFinite
  else
    let Nx := Real.sqrt n * Real.sqrt (Lx / Ly)
    let Ny := n / Nx
    .ok (Lx / Nx, Ly / Ny)

/-- `int(x)` -/
noncomputable def pyInt (x : ℝ) : ℤ := if 0 ≤ x then ⌊x⌋ else ⌈x⌉

/-- `np.linspace(a, b, n)` (for `n = 1` the division by 0 of Lean gives the only value, `a`). -/
noncomputable def linspace (a b : ℝ) (n : ℤ) : Except Err (List ℝ) :=
  if n < 0 then .error .valueError
  else .ok ((List.range n.toNat).map fun i : ℕ => a + (i : ℝ) * ((b - a) / ((n : ℝ) - 1)))

/-- 497-537 `find_common_grid`, for the positions that are not NaN.  The points of the grid are in a list. -/
noncomputable def findCommonGrid (X0 X1 : List V3) (e : ℝ × ℝ × ℝ × ℝ) : Except Err (List V3) :=
  match box X0, box X1 with
  | .ok b0, .ok b1 =>
    let xmin := max b0.xmin b1.xmin
    let xmax := min b0.xmax b1.xmax
    let ymin := max b0.ymin b1.ymin
    let ymax := min b1.ymax b1.ymax
    match spacing b0 X0.length, spacing b1 X1.length with
    | .ok s0, .ok s1 =>
      let dx := max s0.1 s1.1
      let dy := max s0.2 s1.2
      match linspace xmin xmax (pyInt ((xmax - xmin) / dx)), linspace ymin ymax (pyInt ((ymax - ymin) / dy)) with
      | .ok xs, .ok ys =>
        if e.2.2.1 = 0 then .error .notFinite
        else .ok (xs.flatMap fun x => ys.map fun y => ⟨x, y, -(e.1 * x + e.2.1 * y + e.2.2.2) / e.2.2.1⟩)
      | _, _ => .error .valueError
    | _, _ => .error .notFinite
  | _, _ => .error .valueError

end Verif.Calib
