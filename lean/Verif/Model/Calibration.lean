import Mathlib.Analysis.SpecialFunctions.Trigonometric.Basic
import Mathlib.Analysis.SpecialFunctions.Sqrt

/-!
# Model of the calibrations

`/repo/src/fluidimage/calibration/calib2d_simple.py` (all), `calib_tsai.py` 39-216, `util.py` 17-65.

Real numbers instead of floats.  What numpy gives as `inf` or `nan` (divisions by zero) is the error `notFinite`.
-/

namespace Verif.Calib

/-- The exceptions, and the results that are not finite. -/
inductive Err where
  | notFinite
  | unboundLocal
  | indexError
  | attributeError
  | valueError
  | linAlg
  | typeError
  | assertion
  deriving DecidableEq

/-! ## Vectors and matrices (numpy) -/

/-- Arrays of 3 numbers. -/
@[ext] structure V3 where
  x : ℝ
  y : ℝ
  z : ℝ

namespace V3
def add (a b : V3) : V3 := ⟨a.x + b.x, a.y + b.y, a.z + b.z⟩
def sub (a b : V3) : V3 := ⟨a.x - b.x, a.y - b.y, a.z - b.z⟩
def smul (t : ℝ) (a : V3) : V3 := ⟨t * a.x, t * a.y, t * a.z⟩
def dot (a b : V3) : ℝ := a.x * b.x + a.y * b.y + a.z * b.z
/-- `np.cross` -/
def cross (a b : V3) : V3 := ⟨a.y * b.z - a.z * b.y, a.z * b.x - a.x * b.z, a.x * b.y - a.y * b.x⟩
/-- `np.linalg.norm` -/
noncomputable def norm (a : V3) : ℝ := Real.sqrt (a.x ^ 2 + a.y ^ 2 + a.z ^ 2)
end V3

/-- Arrays of shape (3, 3), as three rows. -/
@[ext] structure M3 where
  r0 : V3
  r1 : V3
  r2 : V3

namespace M3
def mulVec (m : M3) (v : V3) : V3 := ⟨m.r0.dot v, m.r1.dot v, m.r2.dot v⟩
def col0 (m : M3) : V3 := ⟨m.r0.x, m.r1.x, m.r2.x⟩
def col1 (m : M3) : V3 := ⟨m.r0.y, m.r1.y, m.r2.y⟩
def col2 (m : M3) : V3 := ⟨m.r0.z, m.r1.z, m.r2.z⟩
def transpose (m : M3) : M3 := ⟨m.col0, m.col1, m.col2⟩
def mul (m n : M3) : M3 :=
  ⟨⟨m.r0.dot n.col0, m.r0.dot n.col1, m.r0.dot n.col2⟩, ⟨m.r1.dot n.col0, m.r1.dot n.col1, m.r1.dot n.col2⟩,
    ⟨m.r2.dot n.col0, m.r2.dot n.col1, m.r2.dot n.col2⟩⟩
def one : M3 := ⟨⟨1, 0, 0⟩, ⟨0, 1, 0⟩, ⟨0, 0, 1⟩⟩
def det (m : M3) : ℝ := m.r0.dot (m.r1.cross m.r2)
/-- `np.linalg.inv`: `LinAlgError` for a singular matrix. -/
noncomputable def inv (m : M3) : Except Err M3 :=
  if m.det = 0 then .error .linAlg
  else .ok (transpose ⟨(m.r1.cross m.r2).smul (1 / m.det), (m.r2.cross m.r0).smul (1 / m.det),
    (m.r0.cross m.r1).smul (1 / m.det)⟩)
end M3

/-! ## `calib2d_simple.py` -/

/-- 55-88: attributes of `Calibration2DSimple`. -/
structure Simple where
  xphys1pixel : ℝ
  yphys1pixel : ℝ
  ixOrigin : ℝ
  iyOrigin : ℝ
  xphysOrigin : ℝ
  yphysOrigin : ℝ

/-- 55-88 `Calibration2DSimple.__init__`.  A point is `(indy, indx)`. -/
noncomputable def mkSimple (point0 point1 : ℝ × ℝ) (distance ar : ℝ) (pointOrigin origPhys : ℝ × ℝ) : Except Err Simple :=
  let d0 := point1.1 - point0.1
  let d1 := point1.2 - point0.2
  let len := Real.sqrt (d0 ^ 2 + (ar * d1) ^ 2)
  if len = 0 then .error .notFinite
  else .ok ⟨distance / len, ar * (distance / len), pointOrigin.2, pointOrigin.1, origPhys.2, origPhys.1⟩

/-- 90-106 -/
noncomputable def Simple.pix2phys (c : Simple) (ix iy : ℝ) : ℝ × ℝ :=
  (c.xphysOrigin + c.xphys1pixel * (ix - c.ixOrigin), c.yphysOrigin + c.yphys1pixel * (iy - c.iyOrigin))

/-- 108-131 -/
noncomputable def Simple.displ2phys (c : Simple) (ix iy dx dy : ℝ) : (ℝ × ℝ) × ℝ × ℝ :=
  (c.pix2phys ix iy, c.xphys1pixel * dx, c.yphys1pixel * dy)

/-! ## `calib_tsai.py` -/

/-- util.py 98-139: the attribute `slice_angle`: missing, the list `[0, 0, 0]` (113, 130), or one vector for each
slice. -/
inductive Angles where
  | absent
  | zeros
  | rows (l : List V3)

/-- The parameters read by `hasattr` in `calib_tsai.py` (util.py 68-150); `slices` is `(slice_angle, zslice_coord)`. -/
structure Tsai where
  f : Option (ℝ × ℝ)
  T : Option V3
  C : Option (ℝ × ℝ)
  kc : Option ℝ
  R : Option M3
  interface : Option V3
  refraction : Option ℝ
  slices : Option (Angles × List V3)

/-- 81-82, 173-174 -/
def Tsai.f' (p : Tsai) : ℝ × ℝ := p.f.getD (1, 1)
/-- 83-84, 175-176 -/
def Tsai.T' (p : Tsai) : V3 := p.T.getD ⟨0, 0, 1⟩
/-- 85-86, 205-206 -/
def Tsai.C' (p : Tsai) : ℝ × ℝ := p.C.getD (0, 0)
/-- 87-88, 199-202: without `kc` no distortion. -/
def Tsai.kc' (p : Tsai) : ℝ := p.kc.getD 0

/-- 45-51: the angle of the slice if the slice is tilted, `none` for a horizontal plane.  The element
`slice_angle[index_level]` is read before the test of `angle`. -/
noncomputable def sliceAngle (a : Angles) (level : ℕ) (angle : Bool) : Except Err (Option V3) :=
  match a with
  | .absent => .ok none
  | .zeros => if level < 3 then .ok none else .error .indexError
  | .rows l =>
    match l[level]? with
    | none => .error .indexError
    | some v => if (v.x ≠ 0 ∨ v.y ≠ 0 ∨ v.z ≠ 0) ∧ angle = true then .ok (some v) else .ok none

/-- 53-63: normal vector of a slice. -/
noncomputable def normPlane (ang : V3) : V3 :=
  let om := ang.norm
  let ax := V3.smul (1 / om) ang
  let cosOm := Real.cos (Real.pi * om / 180)
  let sinOm := Real.sin (Real.pi * om / 180)
  let coeff := ax.z * (1 - cosOm)
  ⟨ax.x * coeff + ax.y * sinOm, ax.y * coeff - ax.x * sinOm, ax.z * coeff + cosOm⟩

/-- 43-70: `Z0`, and the normal vector when the slice is tilted (`testangle`). -/
noncomputable def slicePlane (p : Tsai) (level : ℕ) (angle : Bool) : Except Err (ℝ × Option V3) :=
  match p.slices with
  | none => .error .attributeError
  | some (angles, coords) =>
    match sliceAngle angles level angle with
    | .error e => .error e
    | .ok none =>
      match coords[level]? with
      | none => .error .indexError
      | some c => .ok (c.z, none)
    | .ok (some ang) =>
      match coords[level]? with
      | none => .error .indexError
      | some c =>
        let n := normPlane ang
        if n.z = 0 then .error .notFinite else .ok (n.dot c / n.z, some n)

/-- 71-79 and 181-186: height of the virtual object, and whether there is refraction (`test_refraction` is defined). -/
noncomputable def virtualZ (p : Tsai) (z : ℝ) : ℝ × Bool :=
  match p.interface, p.refraction with
  | some i, some n => if z < i.z then (i.z - (i.z - z) / n, true) else (z, false)
  | _, _ => (z, false)

/-- 127-135, 137-143, 150-152: the point of the plane `Z0virt` for the undistorted sensor coordinates. -/
noncomputable def solvePlane (R : M3) (T : V3) (Z0virt Xu Yu : ℝ) : Except Err (ℝ × ℝ) :=
  let R0 := R.r0.x; let R1 := R.r0.y; let R2 := R.r0.z
  let R3 := R.r1.x; let R4 := R.r1.y; let R5 := R.r1.z
  let R6 := R.r2.x; let R7 := R.r2.y; let R8 := R.r2.z
  let Dx := R4 * R6 - R3 * R7
  let Dy := R0 * R7 - R1 * R6
  let D0 := R1 * R3 - R0 * R4
  let Z11 := R5 * R7 - R4 * R8
  let Z12 := R1 * R8 - R2 * R7
  let Z21 := R3 * R8 - R5 * R6
  let Z22 := R2 * R6 - R0 * R8
  let Zx0 := R2 * R4 - R1 * R5
  let Zy0 := R0 * R5 - R2 * R3
  let A11 := R7 * T.y - R4 * T.z + Z11 * Z0virt
  let A12 := R1 * T.z - R7 * T.x + Z12 * Z0virt
  let A21 := -R6 * T.y + R3 * T.z + Z21 * Z0virt
  let A22 := -R0 * T.z + R6 * T.x + Z22 * Z0virt
  let X0 := R4 * T.x - R1 * T.y + Zx0 * Z0virt
  let Y0 := -R3 * T.x + R0 * T.y + Zy0 * Z0virt
  let denom := Dx * Xu + Dy * Yu + D0
  if denom = 0 then .error .notFinite
  else .ok ((A11 * Xu + A12 * Yu + X0) / denom, (A21 * Xu + A22 * Yu + Y0) / denom)

/-- 117-122 -/
def tiltMatrix (R : M3) (a b : ℝ) : M3 :=
  ⟨⟨R.r0.x + a * R.r0.z, R.r0.y + b * R.r0.z, R.r0.z⟩, ⟨R.r1.x + a * R.r1.z, R.r1.y + b * R.r1.z, R.r1.z⟩,
    ⟨R.r2.x + a * R.r2.z, R.r2.y + b * R.r2.z, R.r2.z⟩⟩

/-- 110-115: the slopes, divided by the refraction index if there is refraction.  `test_refraction` is not defined when
there is no refraction: `UnboundLocalError`. -/
noncomputable def slopes (p : Tsai) (n : V3) (refr : Bool) : Except Err (ℝ × ℝ) :=
  match refr, p.refraction with
  | true, some m => .ok (-n.x / n.z / m, -n.y / n.z / m)
  | _, _ => .error .unboundLocal

/-- 145-149: undistorted sensor coordinates. -/
noncomputable def undistort (p : Tsai) (X Y : ℝ) : Except Err (ℝ × ℝ) :=
  if p.f'.1 = 0 ∨ p.f'.2 = 0 then .error .notFinite
  else
    let Xd := (X - p.C'.1) / p.f'.1
    let Yd := (Y - p.C'.2) / p.f'.2
    let fact := 1 + p.kc' * (Xd * Xd + Yd * Yd)
    if fact = 0 then .error .notFinite else .ok (Xd / fact, Yd / fact)

/-- 39-165 `Calibration.pix2phys`. -/
noncomputable def pix2phys (p : Tsai) (X Y : ℝ) (level : ℕ) (nbypix : ℝ) (angle : Bool) : Except Err V3 :=
  match slicePlane p level angle with
  | .error e => .error e
  | .ok (Z0, plane) =>
    if p.refraction = some 0 then .error .notFinite
    else
      let zv := virtualZ p Z0
      match p.R with
      | some R =>
        match plane with
        | none =>
          match undistort p X (nbypix - Y) with
          | .error e => .error e
          | .ok (Xu, Yu) =>
            match solvePlane R p.T' zv.1 Xu Yu with
            | .error e => .error e
            | .ok (x, y) => .ok ⟨x / 100, y / 100, Z0 / 100⟩
        | some n =>
          match slopes p n zv.2 with
          | .error e => .error e
          | .ok (a, b) =>
            match undistort p X (nbypix - Y) with
            | .error e => .error e
            | .ok (Xu, Yu) =>
              match solvePlane (tiltMatrix R a b) p.T' zv.1 Xu Yu with
              | .error e => .error e
              | .ok (x, y) => .ok ⟨x / 100, y / 100, (Z0 + a * x + b * y) / 100⟩
      | none =>
        if p.f'.1 = 0 ∨ p.f'.2 = 0 then .error .notFinite
        else .ok ⟨(-p.T'.x + X / p.f'.1) / 100, (-p.T'.y + (nbypix - Y) / p.f'.2) / 100, 0⟩

/-- 189-192: camera coordinates. -/
def camera (R : M3) (T : V3) (v : V3) : V3 := (R.mulVec v).add T

/-- 167-216 `Calibration.phys2pix`, for numbers. -/
noncomputable def phys2pix (p : Tsai) (v : V3) : Except Err (ℝ × ℝ) :=
  let x := v.x * 100
  let y := v.y * 100
  let z := v.z * 100
  match p.R with
  | some R =>
    if p.refraction = some 0 then .error .notFinite
    else
      let c := camera R p.T' ⟨x, y, (virtualZ p z).1⟩
      if c.z = 0 then .error .notFinite
      else
        let Xu := c.x / c.z
        let Yu := c.y / c.z
        let r2 := 1 + p.kc' * (Xu * Xu + Yu * Yu)
        .ok (p.f'.1 * Xu * r2 + p.C'.1, p.f'.2 * Yu * r2 + p.C'.2)
  | none => .ok (p.f'.1 * (x + p.T'.x), p.f'.2 * (y + p.T'.y))

/-- 167-171: the arrays of the caller after `phys2pix(Xphys, Yphys)`: the operators `*=` modify the arrays given by the
caller. -/
def phys2pixArguments (xs ys : List ℝ) : List ℝ × List ℝ := (xs.map (· * 100), ys.map (· * 100))

/-! ## `util.py` -/

/-- 17-47 `get_plane_equation` -/
noncomputable def planeEquation (z0 alpha beta : ℝ) : Except Err (ℝ × ℝ × ℝ × ℝ) :=
  if alpha ≠ 0 ∧ beta ≠ 0 then .error .valueError
  else
    let c := Real.cos alpha * Real.cos beta
    .ok (Real.sin beta, -Real.sin alpha * Real.cos beta, c, -c * z0)

/-- 50-65 `get_base_from_normal_vector` -/
noncomputable def baseFromNormal (nx ny nz : ℝ) : Except Err (M3 × M3) :=
  if nz = 0 then .error .notFinite
  else
    let n : V3 := ⟨nx, ny, nz⟩
    let ez := V3.smul (1 / n.norm) n
    let ex' : V3 := ⟨1, 0, -(1 * nx + 0 * ny) / nz⟩
    let ex := V3.smul (1 / ex'.norm) ex'
    let ey := ez.cross ex
    let A := M3.transpose ⟨ex, ey, ez⟩
    match A.inv with
    | .error e => .error e
    | .ok B => .ok (A, B)

end Verif.Calib
