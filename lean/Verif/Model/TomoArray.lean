import Verif.Model.Tomo
import Verif.Py.Basic
import Verif.Model.ResultsFiles

/-!
# The objects of the tomography: interpolation in the images, files, and what is displayed

`/repo/src/fluidimage/reconstruct/tomo/mlos.py` 65-98 (`reconstruct`), 145-158 (`TomoMLOSNeighbour.get_interpolator`);
`/repo/src/fluidimage/data_objects/tomo.py` (`ArrayTomoBase`, `ArrayTomoCV`).

Real numbers instead of floats.  The numbers computed by dask do not depend on the blocks; scipy's `NearestNDInterpolator` gives the
value of a nearest point (any of them if there are several).
-/

namespace Verif.TomoArray
open Verif Verif.ResultsFiles

/-! ## Interpolation -/

open Classical in
/-- mlos.py 149-152: `im[im < threshold] = 0.0` if there is a threshold. -/
noncomputable def thresholded (t : Option ℝ) (im : List (List ℝ)) : List (List ℝ) :=
  match t with
  | none => im
  | some t => im.map fun row => row.map fun v => if v < t then 0 else v

/-- An entry of a sparse matrix. -/
structure Entry where
  col : ℕ
  row : ℕ
  val : ℝ

open Classical in
/-- mlos.py 153: `sparse.coo_matrix(im)`: the entries which are not zero. -/
noncomputable def coo (im : List (List ℝ)) : List Entry :=
  im.zipIdx.flatMap fun q => q.1.zipIdx.filterMap fun p => if p.1 = 0 then none else some ⟨p.2, q.2, p.1⟩

/-- Square of the distance between the point `(x, y)` and an entry. -/
def dist2 (x y : ℝ) (e : Entry) : ℝ := (x - e.col) ^ 2 + (y - e.row) ^ 2

/-- mlos.py 156-158: a value which `NearestNDInterpolator((col, row), data)` can give at the point `(x, y)`. -/
def NearestValue (pts : List Entry) (x y v : ℝ) : Prop := ∃ e ∈ pts, e.val = v ∧ ∀ e' ∈ pts, dist2 x y e ≤ dist2 x y e'

/-! ## Files -/

/-- A path, with the name cut by `os.path.splitext`. -/
structure FilePath where
  dirs : List Txt
  stem : Txt
  ext : Txt
  deriving DecidableEq

/-- The group "tomo" of a file (tomo.py 184-210).  `I` is the last of the datasets: it can be missing. -/
structure Saved where
  xs : List ℝ
  ys : List ℝ
  zs : List ℝ
  nx : ℕ
  ny : ℕ
  nz : ℕ
  I : Option (List ℝ)

/-- The attributes `xmin, xmax, ymin, ymax, zmax` (tomo.py 69-71: `ymin` is the lower limit of the heights, see C55). -/
structure Lims where
  xmin : ℝ
  xmax : ℝ
  ymin : ℝ
  ymax : ℝ
  zmax : ℝ

/-- The intensities: absent, an array of numpy, or an array of dask. -/
inductive Mem where
  | unset
  | numpy (l : List ℝ)
  | dask (l : List ℝ)

/-- An object `ArrayTomoCV`.  (Not here: `dtype`, `params`, `image_path`.) -/
structure Arr where
  lims : Lims
  nbVoxels : ℕ × ℕ × ℕ
  xs : List ℝ
  ys : List ℝ
  zs : List ℝ
  nx : ℕ
  ny : ℕ
  nz : ℕ
  I : Mem
  h5 : Option FilePath

abbrev Disk := FilePath → Option Saved

/-- tomo.py 170-171, 91-97: `init_paths(image_path, output_dir)`; the directory by default is
`os.path.abspath(os.path.join(os.path.dirname(image_path), "..", "tomo"))`. -/
def initPaths (a : Arr) (image : FilePath) (outputDir : Option (List Txt)) : Arr :=
  { a with h5 := some ⟨outputDir.getD (image.dirs.dropLast ++ ["tomo".toList]), image.stem, ".h5".toList⟩ }

/-- tomo.py 128-139 `load`: a missing file, a missing dataset (`KeyError`). -/
def load (disk : Disk) (p : FilePath) (a : Arr) : Except PyErr Arr :=
  match disk p with
  | none => .error .fileNotFoundError
  | some s => match s.I with
    | none => .error .keyError
    | some l => .ok { a with xs := s.xs, ys := s.ys, zs := s.zs, nx := s.nx, ny := s.ny, nz := s.nz, I := .numpy l, h5 := some p }

/-- tomo.py 40-89, 282-297: `ArrayTomoCV(xlims, ylims, zlims, nb_voxels, image_path, h5file_path)`.  `h5file`: `none` if the argument
`h5file_path` is not given, `some none` if it is given and equal to `None`. -/
noncomputable def new (disk : Disk) (xlims ylims zlims : ℝ × ℝ) (nb : ℕ × ℕ × ℕ) (image : Option FilePath)
    (h5file : Option (Option FilePath)) : Except PyErr Arr :=
  let lims : Lims := ⟨xlims.1, xlims.2, zlims.1, ylims.2, zlims.2⟩
  let a : Arr := ⟨lims, nb, Tomo.grid1d xlims nb.1, Tomo.grid1d ylims nb.2.1, Tomo.grid1d zlims nb.2.2, nb.1, nb.2.1, nb.2.2,
    .unset, none⟩
  let loaded := match h5file with
    | some (some p) => load disk p a
    | some none => .ok a
    | none => .ok a
  match loaded with
  | .error e => .error e
  | .ok a =>
    let a := match image with
      | some im => initPaths a im none
      | none => a
    match h5file with
    | none => .ok { a with I := .numpy (List.replicate (Tomo.grid a.xs a.ys a.zs).length 1) }
    | some _ => .ok a

/-- `ArrayTomoCV(h5file_path=p)`: the other arguments by default (tomo.py 40-50). -/
noncomputable def fromFile (disk : Disk) (p : FilePath) : Except PyErr Arr :=
  new disk (0, 10) (0, 10) (0, 5) (10, 10, 5) none (some (some p))

def setFile (disk : Disk) (p : FilePath) (s : Option Saved) : Disk := fun q => if q = p then s else disk q

/-- What is in the file before the intensities are written (tomo.py 181, 196-210). -/
def header (a : Arr) (I : Option (List ℝ)) : Saved := ⟨a.xs, a.ys, a.zs, a.nx, a.ny, a.nz, I⟩

/-- tomo.py 173-210: `save(path)`, with what is on the disk after it, also in case of error.  The file is opened with the mode "w", and
the intensities are the last dataset. -/
def save (disk : Disk) (a : Arr) (path : Option FilePath) : Disk × Except PyErr Unit :=
  match path with
  | some p => match a.I with
    | .unset => (setFile disk p (some (header a none)), .error .attributeError)
    | .numpy l => (setFile disk p (some (header a (some l))), .ok ())
    | .dask l => (setFile disk p (some (header a (some l))), .ok ())
  | none => match a.h5 with
    | none => (disk, .error .attributeError)
    | some p => match a.I with
      | .unset => (setFile disk p (some (header a none)), .error .attributeError)
      | .numpy l => (setFile disk p (some (header a (some l))), .ok ())
      | .dask l => (setFile disk p (some (header a (some l))), .ok ())

/-- tomo.py 118-126: `clear()`. -/
def clear (disk : Disk) (a : Arr) : Disk × Except PyErr Arr :=
  match a.I with
  | .unset => (disk, .error .attributeError)
  | I =>
    let a := match I with
      | .numpy l => { a with I := .numpy (List.replicate l.length 1) }
      | _ => a
    match a.h5 with
    | none => (disk, .error .attributeError)
    | some p => (setFile disk p none, .ok a)

/-! ## Reconstruction -/

/-- mlos.py 86: the values of the voxels at the power 1 / number of cameras. -/
noncomputable def ivox (ncams : ℕ) (v : List ℝ) : List ℝ := v.map fun x => x ^ (1 / (ncams : ℝ))

/-- mlos.py 78-98 `reconstruct(..., save=False)`: `vals` are the values interpolated for the voxels. -/
noncomputable def reconstructMemory (ncams : ℕ) (vals : List ℝ) (a : Arr) : Except PyErr Arr :=
  match a.I with
  | .unset => .error .attributeError
  | .numpy l => .ok { a with I := .numpy (List.zipWith (· * ·) l (ivox ncams vals)) }
  | .dask l => .ok { a with I := .dask (List.zipWith (· * ·) l (ivox ncams vals)) }

/-- A block of voxels: their number, the values which are computed for them (or an exception), and whether they are written. -/
structure Block where
  size : ℕ
  vals : Except PyErr (List ℝ)
  stored : Bool

/-- What is in a dataset after `da.store` (tomo.py 205-208) has raised an exception: the values of some blocks, and 0 elsewhere. -/
def storeBlocks (blocks : List Block) : List ℝ :=
  blocks.flatMap fun b => match b.vals with
    | .ok l => if b.stored then l else List.replicate b.size 0
    | .error _ => List.replicate b.size 0

/-- tomo.py 144-145: the temporary copy of a file, next to it. -/
def tmpOf (p : FilePath) : FilePath := ⟨p.dirs, p.stem ++ "_tmp".toList, p.ext⟩

/-- mlos.py 78-98 `reconstruct(..., save=True)`, when no block fails: the temporary copy replaces any file which has its name, and is
removed. -/
noncomputable def reconstructFile (ncams : ℕ) (vals : List ℝ) (disk : Disk) (a : Arr) : Disk × Except PyErr Arr :=
  match a.h5 with
  | none => (disk, .error .attributeError)
  | some p => match disk p with
    | some s => match s.I with
      | none => (setFile disk (tmpOf p) (some s), .error .keyError)
      | some d =>
        let a := { a with I := .dask (List.zipWith (· * ·) d (ivox ncams vals)) }
        (setFile (save (setFile disk (tmpOf p) (some s)) a none).1 (tmpOf p) none, .ok a)
    | none =>
      let a := { a with I := .dask (ivox ncams vals) }
      ((save disk a none).1, .ok a)

/-- mlos.py 84 in a block. -/
noncomputable def rootBlock (ncams : ℕ) (b : Block) : Block :=
  match b.vals with
  | .error _ => b
  | .ok l => ⟨b.size, .ok (ivox ncams l), b.stored⟩

/-- The same when the interpolation raises an exception in some of the blocks of voxels (the values are computed during the save): the
file has been replaced, and has the values of some blocks; the temporary copy is not removed. -/
noncomputable def reconstructFails (ncams : ℕ) (blocks : List Block) (e : PyErr) (disk : Disk) (a : Arr) (p : FilePath) :
    Disk × Except PyErr Arr :=
  let vals := storeBlocks (blocks.map (rootBlock ncams))
  match disk p with
  | some s => match s.I with
    | none => (setFile disk (tmpOf p) (some s), .error .keyError)
    | some d => (setFile (setFile disk (tmpOf p) (some s)) p (some (header a (some (List.zipWith (· * ·) d vals)))), .error e)
  | none => (setFile disk p (some (header a (some vals))), .error e)

/-- One step of the script of the user: `array.init_paths(image, output_dir)` and `reconstruct(pix, image, save=True)`. -/
noncomputable def imageToFile (ncams : ℕ) (outputDir : Option (List Txt)) (image : FilePath) (vals : List ℝ) (disk : Disk) (a : Arr) :
    Disk × Except PyErr Arr :=
  reconstructFile ncams vals disk (initPaths a image outputDir)

/-- mlos.py 239-247: the loops of the user: images and the values interpolated in them, one after the other. -/
noncomputable def script (ncams : ℕ) (outputDir : Option (List Txt)) : List (FilePath × List ℝ) → Disk → Arr → Disk × Except PyErr Arr
  | [], disk, a => (disk, .ok a)
  | (im, v) :: l, disk, a => match imageToFile ncams outputDir im v disk a with
    | (disk, .error e) => (disk, .error e)
    | (disk, .ok a) => script ncams outputDir l disk a

/-- doc/tutorials/tuto_opencv_tomo_reconstruct.md: the same loops with `save=False`. -/
noncomputable def scriptMemory (ncams : ℕ) (outputDir : Option (List Txt)) : List (FilePath × List ℝ) → Arr → Except PyErr Arr
  | [], a => .ok a
  | (im, v) :: l, a => match reconstructMemory ncams v (initPaths a im outputDir) with
    | .error e => .error e
    | .ok a => scriptMemory ncams outputDir l a

/-! ## Display -/

/-- tomo.py 246-261 `plot_slices`: the number of the image which is shown for the slice `k`, at the row `i` and the column `j`:
`I.reshape((nx, ny, nz))[:, :, k]`. -/
def shownSlice (nx ny nz : ℕ) (I : List ℝ) (k i j : ℕ) : Except PyErr ℝ :=
  if I.length = nx * (ny * nz) then
    if i < nx ∧ j < ny ∧ k < nz then
      match I[(i * ny + j) * nz + k]? with
      | some v => .ok v
      | none => .error .indexError
    else .error .indexError
  else .error .valueError

/-- tomo.py 102-107 `describe(vmin=...)`: `x, y = np.where(I < vmin)`: as many arrays as dimensions (1 for `ArrayTomoCV`, 3 for
`ArrayTomo`), and two names. -/
def describeBelow (ndim : ℕ) : Except PyErr Unit := if ndim = 2 then .ok () else .error .valueError

end Verif.TomoArray
