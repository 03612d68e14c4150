import Verif.Model.Calibration
import Mathlib.Analysis.SpecialFunctions.Pow.Real

/-!
# Model of the tomography

`/repo/src/fluidimage/data_objects/tomo.py` 40-89 (`ArrayTomoBase`), 118-126 (`clear`), 282-297 (`ArrayTomoCV`);
`/repo/src/fluidimage/reconstruct/tomo/mlos.py` 57-98 (`TomoMLOSBase`), 161-187 (`TomoMLOSCV.phys2pix`);
`/repo/src/fluidimage/calibration/calib_cv.py` 122-156 (order of the detected points), 159-186
(`construct_object_points`).

Real numbers instead of floats.
-/

namespace Verif.Tomo
open Verif.Calib

/-! ## `tomo.py` -/

/-- 79-81: `np.linspace(start, stop, nb, endpoint=True)` (for `nb = 1` the division by 0 of Lean gives `start`). -/
noncomputable def grid1d (lims : ℝ × ℝ) (nb : ℕ) : List ℝ :=
  (List.range nb).map fun i : ℕ => lims.1 + (i : ℝ) * ((lims.2 - lims.1) / ((nb : ℝ) - 1))

/-- 69-71: the attributes with the limits, as a list of the assignments in the order of the code (71: `ymin` for
`zlims[0]`). -/
def limits (xlims ylims zlims : ℝ × ℝ) : List (String × ℝ) :=
  [("xmin", xlims.1), ("xmax", xlims.2), ("ymin", ylims.1), ("ymax", ylims.2), ("ymin", zlims.1), ("zmax", zlims.2)]

/-- Value of an attribute after the assignments: the last one. -/
def attr (l : List (String × ℝ)) (name : String) : Option ℝ := ((l.filter fun q => q.1 = name).map Prod.snd).getLast?

/-- 284-288: the three rows of `np.vstack(np.meshgrid(zs, ys, xs, indexing="ij")).reshape(3, -1)`, as columns: the first
index of the arrays varies the slowest. -/
def meshFlat (zs ys xs : List ℝ) : List (ℝ × ℝ × ℝ) := zs.flatMap fun z => ys.flatMap fun y => xs.map fun x => (z, y, x)

/-- 282-294: `self.grid`, with the columns swapped. -/
def grid (xs ys zs : List ℝ) : List V3 := (meshFlat zs ys xs).map fun q => ⟨q.2.2, q.2.1, q.1⟩

/-! ## `mlos.py` -/

/-- `pix[istart:iend, ...] = vals` for an array of `n` rows: an error if the shapes differ, except for one value that is
broadcast. -/
def assignSlice {α : Type} (pix : List α) (istart iend : ℕ) (vals : List α) : Except Err (List α) :=
  let a := min istart pix.length
  let b := max a (min iend pix.length)
  if vals.length = b - a then .ok (pix.take a ++ vals ++ pix.drop b)
  else
    match vals with
    | [v] => .ok (pix.take a ++ List.replicate (b - a) v ++ pix.drop b)
    | _ => .error .valueError

open Classical in
/-- 173-186: the loop over the heights, from the index `i`.  `proj z` is the projection (cv2) of one point with the
rotation and the translation interpolated at `z`. -/
noncomputable def phys2pixLoop {α : Type} (proj : ℝ → V3 → α) (g : List V3) :
    List ℝ → ℕ → List α → Except Err (List α)
  | [], _, pix => .ok pix
  | z :: zs, i, pix =>
    let sl := g.filter fun v => v.z = z
    let n := sl.length
    match assignSlice pix (i * n) ((i + 1) * n) (sl.map (proj z)) with
    | .error e => .error e
    | .ok pix => phys2pixLoop proj g zs (i + 1) pix

/-- 167-187 `phys2pix`.  `junk`: the content of `np.empty`. -/
noncomputable def phys2pix {α : Type} (proj : ℝ → V3 → α) (g : List V3) (zs : List ℝ) (junk : List α) :
    Except Err (List α) :=
  phys2pixLoop proj g zs 0 junk

/-- State of a reconstruction: the intensities in memory, and the files with intensities. -/
structure State where
  intens : List ℝ
  files : String → Option (List ℝ)

/-- 296-297: `self.I = np.ones(len(self.grid))` -/
noncomputable def initState (n : ℕ) (files : String → Option (List ℝ)) : State := ⟨List.replicate n 1, files⟩

/-- 65-98 `reconstruct`: `vals` are the interpolated intensities of the voxels, `ncams` is `len(self.cams)`, `path` the
file of the array.  (dask: the blocks give the same result as the whole arrays.) -/
noncomputable def reconstruct (ncams : ℕ) (vals : List ℝ) (path : String) (save : Bool) (s : State) : State :=
  let ivox := vals.map fun v => v ^ (1 / (ncams : ℝ))
  if save then
    match s.files path with
    | some d =>
      let i := List.zipWith (· * ·) d ivox
      ⟨i, fun q => if q = path then some i else s.files q⟩
    | none => ⟨ivox, fun q => if q = path then some ivox else s.files q⟩
  else ⟨List.zipWith (· * ·) s.intens ivox, s.files⟩

/-- 239-247: the loop of the user over the cameras, for one file. -/
noncomputable def reconstructAll (ncams : ℕ) (path : String) (save : Bool) : List (List ℝ) → State → State
  | [], s => s
  | v :: vs, s => reconstructAll ncams path save vs (reconstruct ncams v path save s)

/-! ## `calib_cv.py` -/

/-- 177-186 `construct_object_points`: `np.mgrid[-ny:ny:stepy, -nx:nx:stepx]` has the shape (2, ny, nx), its transpose
(nx, ny, 2). -/
def objectPoints (nx ny : ℕ) (z ds : ℝ) : Except Err (List V3) :=
  if nx % 2 = 1 ∧ ny % 2 = 1 then
    let hx : ℕ := (nx - 1) / 2
    let hy : ℕ := (ny - 1) / 2
    .ok ((List.range nx).flatMap fun ix : ℕ => (List.range ny).map fun iy : ℕ =>
      ⟨(-(hy : ℝ) + (iy : ℝ)) * ds, (-(hx : ℝ) + (ix : ℝ)) * ds, z⟩)
  else .error .assertion

/-- `np.round`: to the nearest integer, half to even. -/
noncomputable def rint (x : ℝ) : ℤ :=
  let f := ⌊x⌋
  if x - f < 1 / 2 then f
  else if 1 / 2 < x - f then f + 1
  else if f % 2 = 0 then f
  else f + 1

/-- 137-140: order of `np.lexsort((xround, yround))`: first `yround`, then `xround`. -/
noncomputable def lexLe (ds : ℝ) (a b : ℝ × ℝ) : Bool :=
  decide (rint (a.2 / ds) < rint (b.2 / ds)) ||
    (decide (rint (a.2 / ds) = rint (b.2 / ds)) && decide (rint (a.1 / ds) ≤ rint (b.1 / ds)))

/-- 122-156 `detect_grid`, for the detected points in the box (131-134): sorted (stable), and counted. -/
noncomputable def detectGrid (centers : List (ℝ × ℝ)) (nx ny : ℕ) (ds : ℝ) : Except Err (List (ℝ × ℝ)) :=
  let sorted := centers.mergeSort (lexLe ds)
  if sorted.length ≠ nx * ny then .error .assertion else .ok sorted

end Verif.Tomo
