import Verif.Model.Stereo
import Mathlib.Data.Finset.Sort

/-!
# Model of the determination of the optical paths of the pixels

`/repo/src/fluidimage/calibration/calib_direct.py` 43-252 (`get_points`, `CalibDirect.compute_interpolents`,
`compute_interpolents_pixel2line`, `pixel2line`).

Simplifications.  Real numbers instead of floats, `none` for NaN.  The functions of the libraries are arguments: the linear
interpolation of `scipy` (`LinearNDInterpolator` and `griddata`) and the singular value decomposition of `numpy`; what is used of
them is in the specifications (`IsLinearInterpolation`, `IsSvd`).  The order of the lines of the matrix given to the singular value
decomposition (`argsort`, 242-243) has no influence on the matrix `v` and is not modelled.  The exceptions of `scipy` for grids with
less than three points or with aligned points are not modelled.
-/

namespace Verif.Calib

/-- One point of the file of a calibration image: the coordinates in centimetres and the indices of the pixel. -/
structure GridPoint where
  X : ℝ
  Y : ℝ
  Z : ℝ
  x : ℝ
  y : ℝ

/-- What `get_points` returns. -/
structure Level where
  X : List ℝ
  Y : List ℝ
  Z : ℝ
  pix : List (ℝ × ℝ)

/-- 43-70 `get_points`: the coordinate `Z` is the one of the first point (64), the lengths are in metres (67-68). -/
noncomputable def getPoints : List GridPoint → Except Err Level
  | [] => .error .indexError
  | p :: ps => .ok {
      X := (p :: ps).map fun q => q.X / 100
      Y := (p :: ps).map fun q => q.Y / 100
      Z := p.Z / 100
      pix := (p :: ps).map fun q => (q.x, q.y) }

/-- 123-135: the files, one after the other. -/
noncomputable def readLevels : List (List GridPoint) → Except Err (List Level)
  | [] => .ok []
  | f :: fs => match getPoints f with
    | .error e => .error e
    | .ok l => match readLevels fs with
      | .error e => .error e
      | .ok ls => .ok (l :: ls)

/-- 132-133, 230-231: the physical coordinates of the pixel at one level. -/
def Level.at (g : GridData) (l : Level) (q : ℝ × ℝ) : Option ℝ × Option ℝ := (g l.pix l.X q, g l.pix l.Y q)

/-- `np.linalg.svd(XYZ)[2]`: the three lines of the matrix `v`. -/
abbrev Svd := List V3 → V3 × V3 × V3

/-- 234-240: the lines of `XYZ - XYZ0` without NaN in `X + Y`; `(x0, y0, z0)` is `XYZ0`. -/
def centred (x0 y0 z0 : ℝ) (pts : List ((Option ℝ × Option ℝ) × ℝ)) : List V3 :=
  pts.filterMap fun p => match p.1.1, p.1.2 with
    | some x, some y => some ⟨x - x0, y - y0, p.2 - z0⟩
    | _, _ => none

/-- 245-247: `np.cross(v[-1, :], v[-2, :])`, changed to its opposite if its component `z` is negative. -/
noncomputable def direction (v : V3 × V3 × V3) : V3 :=
  let d := v.2.2.cross v.2.1
  if d.z < 0 then d.smul (-1) else d

/-- 219-252 `pixel2line`: a point and a direction, or six NaN. -/
noncomputable def pixel2line (g : GridData) (svd : Svd) (ls : List Level) (q : ℝ × ℝ) : Option (V3 × V3) :=
  let pts := ls.map fun l => (l.at g q, l.Z)
  match nanmean (pts.map fun p => p.1.1), nanmean (pts.map fun p => p.1.2), nanmean (pts.map fun p => some p.2) with
  | some x0, some y0, some z0 =>
    let c := centred x0 y0 z0 pts
    if c.length > 1 then some (⟨x0, y0, z0⟩, direction (svd c)) else none
  | _, _, _ => none

/-- 154-155: `np.unique(np.floor(np.linspace(0, nb_pixels, nb_lines)))` -/
noncomputable def nodes (nbPixels nbLines : ℕ) : List ℤ :=
  ((List.range nbLines).map fun i : ℕ => ⌊(i : ℝ) * ((nbPixels : ℝ) / ((nbLines : ℝ) - 1))⌋).toFinset.sort (· ≤ ·)

/-- 171-182: the nodes where the path is not NaN, with their paths. -/
noncomputable def goodNodes (g : GridData) (svd : Svd) (ls : List Level) (xs ys : List ℤ) : List ((ℝ × ℝ) × (V3 × V3)) :=
  xs.flatMap fun (x : ℤ) => ys.filterMap fun (y : ℤ) => (pixel2line g svd ls (x, y)).map fun l => (((x : ℝ), (y : ℝ)), l)

/-- 207-211: one of the six components at a node where the path is NaN. -/
noncomputable def filled (g : GridData) (good : List ((ℝ × ℝ) × (V3 × V3))) (q : ℝ × ℝ) (c : V3 × V3 → ℝ) : Option ℝ :=
  g (good.map Prod.fst) (good.map fun r => c r.2) q

/-- 180, 209-211: the array `V` at a node. -/
noncomputable def nodeLine (g : GridData) (svd : Svd) (ls : List Level) (good : List ((ℝ × ℝ) × (V3 × V3))) (q : ℝ × ℝ) :
    Option (V3 × V3) :=
  match pixel2line g svd ls q with
  | some l => some l
  | none =>
    match filled g good q (fun l => l.1.x), filled g good q (fun l => l.1.y), filled g good q (fun l => l.1.z),
      filled g good q (fun l => l.2.x), filled g good q (fun l => l.2.y), filled g good q (fun l => l.2.z) with
    | some a, some b, some c, some d, some e, some f => some (⟨a, b, c⟩, ⟨d, e, f⟩)
    | _, _, _, _, _, _ => none

/-- Index of the interval of `xs` used by `RegularGridInterpolator` for `x`. -/
noncomputable def cell (xs : List ℤ) (x : ℝ) : ℕ := (xs.tail.dropLast.filter fun (a : ℤ) => decide ((a : ℝ) ≤ x)).length

/-- Linear interpolation between two numbers with the weight `t`. -/
def lerp (t a b : ℝ) : ℝ := (1 - t) * a + t * b

/-- Linear interpolation between two paths. -/
def lerpLine (t : ℝ) (a b : V3 × V3) : V3 × V3 :=
  (⟨lerp t a.1.x b.1.x, lerp t a.1.y b.1.y, lerp t a.1.z b.1.z⟩, ⟨lerp t a.2.x b.2.x, lerp t a.2.y b.2.y, lerp t a.2.z b.2.z⟩)

/-- 213-215: `RegularGridInterpolator((xtmp, ytmp), V)` at a pixel; NaN as soon as one of the four nodes is NaN, `ValueError` out of
the bounds. -/
noncomputable def interpLines (xs ys : List ℤ) (V : ℤ → ℤ → Option (V3 × V3)) (q : ℝ × ℝ) : Except Err (Option (V3 × V3)) :=
  match xs[cell xs q.1]?, xs[cell xs q.1 + 1]?, ys[cell ys q.2]?, ys[cell ys q.2 + 1]? with
  | some xa, some xb, some ya, some yb =>
    if xa ≤ q.1 ∧ q.1 ≤ xb ∧ ya ≤ q.2 ∧ q.2 ≤ yb then
      let tx := (q.1 - xa) / (xb - xa)
      let ty := (q.2 - ya) / (yb - ya)
      match V xa ya, V xa yb, V xb ya, V xb yb with
      | some aa, some ab, some ba, some bb => .ok (some (lerpLine tx (lerpLine ty aa ab) (lerpLine ty ba bb)))
      | _, _, _, _ => .ok none
    else .error .valueError
  | _, _, _, _ => .error .valueError

/-- 91-217: the object after `compute_interpolents` and `compute_interpolents_pixel2line`: the function which gives the path of a
pixel.  Without any good node, `vtrue[:, j]` (210) is an `IndexError`. -/
noncomputable def calibDirect (g : GridData) (svd : Svd) (files : List (List GridPoint)) (nbX nbY linesX linesY : ℕ) :
    Except Err (ℝ × ℝ → Except Err (Option (V3 × V3))) :=
  match files with
  | [] => .error .valueError
  | _ => match readLevels files with
    | .error e => .error e
    | .ok ls =>
      let xs := nodes nbX linesX
      let ys := nodes nbY linesY
      let good := goodNodes g svd ls xs ys
      match good with
      | [] => .error .indexError
      | _ => .ok (interpLines xs ys fun x y => nodeLine g svd ls good (x, y))

end Verif.Calib
