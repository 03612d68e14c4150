import Verif.Model.SurfaceFrame

/-!
# Model of the heights computed by the surface tracking

`/repo/src/fluidimage/works/surface_tracking.py`: 488-569 `calculheight_func`, 571-601 `set_borders_zero_func`, 603-668
`convphase`, 702-715 `process_ref` (from the phase of the reference).

Numbers are rationals, `none` is a number which is not finite (infinite phases are not distinguished from NaN); `pi` is the
value of `np.pi`.  `scipy.interpolate.griddata` and `skimage.transform.resize` are parameters.
-/

namespace Verif.SurfaceHeight
open Verif Verif.PivGrid Verif.SurfaceFrame

/-! ## Detection of the jumps of phase -/

/-- 509-510, 536-537: the difference of two successive phases. -/
def diffs : List (Option ℚ) → List (Option ℚ)
  | a :: b :: l => minus b a :: diffs (b :: l)
  | _ => []

/-- `np.sign(int(d))`: `int` truncates. -/
def signTrunc (d : ℚ) : Int := if 1 ≤ d then 1 else if d ≤ -1 then -1 else 0

/-- 507-512, 534-539: `jumps`.  The test, `d > 0.95 * np.pi or d < 0.95 * np.pi`, is false for NaN. -/
def jumps (pi : ℚ) (a : List (Option ℚ)) : List Int :=
  (diffs a).filterMap fun d => match d with
    | none => none
    | some d => if 95 / 100 * pi < d ∨ d < 95 / 100 * pi then some (signTrunc d) else none

/-- 523-526: the value for the lines. -/
def valLine (pi : ℚ) (switch : Int) : ℚ := if 1 ≤ switch then -2 * pi * switch else if switch ≤ -1 then 2 * pi * switch else 0

/-- 550-553: the value for the columns. -/
def valColumn (pi : ℚ) (switch : Int) : ℚ := if 1 ≤ switch then -2 * pi else if switch ≤ -1 then 2 * pi else 0

/-- 518-527, 545-554: the loop which fills `smoother`. -/
def smootherLoop (val : Int → ℚ) : Int → List Int → List ℚ
  | _, [] => []
  | switch, j :: l =>
    let switch := if 0 < j then switch + 1 else if j < 0 then switch - 1 else switch
    val switch :: smootherLoop val switch l

/-- 514-528, 541-555 -/
def smoother (val : Int → ℚ) (js : List Int) : List ℚ := 0 :: smootherLoop val 0 js

/-- 529, 556: `a + smoother` with the broadcasting of NumPy. -/
def addLists (a : List (Option ℚ)) (s : List ℚ) : Except PyErr (List (Option ℚ)) :=
  if s.length = a.length then .ok (List.zipWith (fun x y => plus x (some y)) a s)
  else match a, s with
    | _, [y] => .ok (a.map fun x => plus x (some y))
    | [x], _ => .ok (s.map fun y => plus x (some y))
    | _, _ => .error .valueError

/-- 506-530, 533-557: all the lines (or the columns). -/
def smoothAll (pi : ℚ) (val : Int → ℚ) : List (List (Option ℚ)) → Except PyErr (List (List (Option ℚ)))
  | [] => .ok []
  | a :: l => match addLists a (smoother val (jumps pi a)) with
    | .error e => .error e
    | .ok s => match smoothAll pi val l with
      | .error e => .error e
      | .ok r => .ok (s :: r)

/-- 532: `array_s.T`, for lines of the same length `n`. -/
def transpose (n : Nat) (l : List (List (Option ℚ))) : List (List (Option ℚ)) :=
  (List.range n).map fun j => l.map fun r => r.getD j none

/-- 505-557: the two loops; their result is not used (558). -/
def smoothCheck (pi : ℚ) (a : Img (Option ℚ)) : Except PyErr Unit :=
  match smoothAll pi (valLine pi) (rows a) with
  | .error e => .error e
  | .ok s => match smoothAll pi (valColumn pi) (transpose a.nx s) with
    | .error e => .error e
    | .ok _ => .ok ()

/-! ## From phases to heights -/

/-- Attributes of the object read by the functions; `waveProj` is the attribute computed from `k_x` (line 235). -/
structure Params where
  pixSize : ℚ
  distanceObject : ℚ
  distanceLens : ℚ
  waveProj : ℚ
  redFactor : ℚ
  correctPos : Bool
  correctHeight : Bool
  offset : ℚ

/-- Product of floats. -/
def times : Option ℚ → Option ℚ → Option ℚ
  | some a, some b => some (a * b)
  | _, _ => none

/-- 640: height of one pixel; `2 * np.pi / wave_len` is not finite for a null wave length. -/
def heightOf (pi dist distPC waveLen : ℚ) (phase : Option ℚ) : Option ℚ :=
  quot (times phase (some dist)) (minus phase (times (quot (some (2 * pi)) (some waveLen)) (some distPC)))

/-- 645-646: coordinates of the pixels in one direction. -/
def coord (p : Params) (n k : Nat) : ℚ := (k - (n : ℚ) / 2) * p.pixSize * p.redFactor

/-- 650-653, 654-657: the four assignments, in the order of the code.  `dX[1, :]` and `dX[:, 1]` need two lines and two columns. -/
def zeroEdges (d : Img (Option ℚ)) : Except PyErr (Img (Option ℚ)) :=
  if d.ny < 2 then .error .indexError
  else if d.nx < 2 then .error .indexError
  else
    let d1 : Nat → Nat → Option ℚ := fun i j => if i = 1 then some 0 else d.get i j
    let d2 : Nat → Nat → Option ℚ := fun i j => if i = d.ny - 1 then some 0 else d1 i j
    let d3 : Nat → Nat → Option ℚ := fun i j => if j = 1 then some 0 else d2 i j
    let d4 : Nat → Nat → Option ℚ := fun i j => if i < d.ny - 1 then some 0 else d3 i j
    .ok ⟨d.ny, d.nx, d4⟩

/-- The pixels of an array in the order of `reshape(ld * Ld)`. -/
def pixels (ny nx : Nat) : List (Nat × Nat) := (List.range ny).flatMap fun i => (List.range nx).map fun j => (i, j)

/-- `scipy.interpolate.griddata`: coordinates of the points, values, points where the function is interpolated. -/
abbrev Griddata := List (Option ℚ × Option ℚ) → List (Option ℚ) → List (ℚ × ℚ) → List (Option ℚ)

/-- 641-664: correction of the positions. -/
def correctPositions (griddata : Griddata) (p : Params) (height : Img (Option ℚ)) : Except PyErr (Img (Option ℚ)) :=
  let x := coord p height.nx
  let y := coord p height.ny
  let dX : Img (Option ℚ) := ⟨height.ny, height.nx, fun i j => times (quot (some (-x j)) (some p.distanceObject)) (height.get i j)⟩
  let dY : Img (Option ℚ) := ⟨height.ny, height.nx, fun i j => times (quot (some (-y i)) (some p.distanceObject)) (height.get i j)⟩
  match zeroEdges dX with
  | .error e => .error e
  | .ok dX => match zeroEdges dY with
    | .error e => .error e
    | .ok dY =>
      let pts := (pixels height.ny height.nx).map fun ij => (plus (some (x ij.2)) (dX.get ij.1 ij.2), plus (some (y ij.1)) (dY.get ij.1 ij.2))
      let vals := (pixels height.ny height.nx).map fun ij => height.get ij.1 ij.2
      let query := (pixels height.ny height.nx).map fun ij => (x ij.2, y ij.1)
      let r := griddata pts vals query
      .ok ⟨height.ny, height.nx, fun i j => (r[i * height.nx + j]?).getD none⟩

/-- 665-666: subtraction of the height of the reference (arrays of the same shape). -/
def subtractRef (refHeight height : Img (Option ℚ)) : Except PyErr (Img (Option ℚ)) :=
  if refHeight.ny = height.ny ∧ refHeight.nx = height.nx then
    .ok ⟨height.ny, height.nx, fun i j => minus (height.get i j) (refHeight.get i j)⟩
  else .error .valueError

/-- 603-668 `convphase` -/
def convphase (griddata : Griddata) (pi : ℚ) (p : Params) (refHeight phase : Img (Option ℚ)) : Except PyErr (Img (Option ℚ)) :=
  let height : Img (Option ℚ) := ⟨phase.ny, phase.nx, fun i j =>
    heightOf pi p.distanceObject p.distanceLens p.waveProj (phase.get i j)⟩
  match (if p.correctPos then correctPositions griddata p height else .ok height) with
  | .error e => .error e
  | .ok height => if p.correctHeight then subtractRef refHeight height else .ok height

/-- 488-569 `calculheight_func`: the array given to `convphase` is the phase itself (558). -/
def calculHeight (griddata : Griddata) (pi : ℚ) (p : Params) (refHeight phase : Img (Option ℚ)) : Except PyErr (Img (Option ℚ)) :=
  match smoothCheck pi phase with
  | .error e => .error e
  | .ok _ => convphase griddata pi p refHeight phase

/-- 711-715: the height of the reference, from its phase. -/
def processRef (griddata : Griddata) (pi : ℚ) (p : Params) (refAngle : Img (Option ℚ)) : Except PyErr (Img (Option ℚ)) :=
  match calculHeight griddata pi p ⟨refAngle.ny, refAngle.nx, fun _ _ => some 0⟩ refAngle with
  | .error e => .error e
  | .ok h => .ok ⟨h.ny, h.nx, fun i j => minus (h.get i j) (some p.offset)⟩

/-! ## Borders -/

/-- `skimage.transform.resize(image, (ny, nx))`; the image is given by its lines. -/
abbrev Resize := List (List (Option ℚ)) → Nat → Nat → Except PyErr (Img (Option ℚ))

/-- 593-597: the columns of the height given to `resize`. -/
def innerColumns (xmin xmax borders : Nat) (array : Img (Option ℚ)) (xMin xMax : Int) : Img (Option ℚ) :=
  array.slice 0 array.ny (xMin + borders - xmin) (-((xmax : Int) - xMax + borders))

/-- 571-601 `set_borders_zero_func`; `refNy`, `refNx` is the shape of `self.ref`; the shape asked to `resize` (599) must not have
negative numbers. -/
def setBordersZero (resize : Resize) (xmin xmax borders refNy refNx : Nat) (array : Img (Option ℚ)) (shape : Int × Int) :
    Except PyErr (Img (Option ℚ)) :=
  let xMax := if shape.2 ≥ xmax then (xmax : Int) - 1 else shape.2
  let width : Int := (xmax : Int) - 2 * borders - xmin
  if width < 0 then .error .valueError
  else match resize (rows (innerColumns xmin xmax borders array shape.1 xMax)) refNy width.toNat with
    | .error e => .error e
    | .ok r => assignColumns ⟨refNy, refNx, fun _ _ => some 0⟩ borders (-(borders : Int)) r

end Verif.SurfaceHeight
