import Verif.Model.GridFinal
import Verif.Model.FieldOps

/-!
# Model of the old post-processing functions

`/repo/src/fluidimage/postproc/postproc.py` (a module which is announced as deprecated, and which can be imported and used).

Simplifications.  The numbers are rationals (no NaN, no rounding).  A file which is loaded has the four arrays of `LightPIVResults`
(`data_objects/piv.py` 885-901: they are saved together), all of one dimension and of one length.  The functions of display are not modelled; the spectra are
those of `postproc/util.py` (Model/Spectrum).
-/

namespace Verif.OldPostproc
open Verif Verif.PivGrid Verif.GridFinal Verif.VectorField Verif.FieldOps

/-- The arrays of `LightPIVResults` loaded from a file (`data_objects/piv.py` 872-901). -/
structure Light where
  xs : List ℚ
  ys : List ℚ
  us : List ℚ
  vs : List ℚ

/-- 30-36 `compute_grid` -/
def computeGrid (xs ys us vs : List ℚ) : Except PyErr (Img ℚ × Img ℚ × Img ℚ × Img ℚ) :=
  let XY := meshgrid (unique xs) (unique ys)
  match reshape us XY.1.ny XY.1.nx with
  | .error e => .error e
  | .ok U => match reshape vs XY.1.ny XY.1.nx with
    | .error e => .error e
    | .ok V => .ok (XY.1, XY.2, U, V)

/-- NumPy `np.gradient(im, h0, h1, edge_order=eo)`: the derivatives along the axis 0 (the lines, with the distance `h0`) and along the axis 1
(the columns, with the distance `h1`). -/
def gradient2 (im : Img ℚ) (h0 h1 : ℚ) (eo : Nat) : Except PyErr (Img ℚ × Img ℚ) :=
  match gradY eo h0 im with
  | .error e => .error e
  | .ok g0 => match gradX eo h1 im with
    | .error e => .error e
    | .ok g1 => .ok (g0, g1)

/-- The four derivatives, with the names given by the code. -/
structure Derivs where
  dUdx : Img ℚ
  dUdy : Img ℚ
  dVdx : Img ℚ
  dVdy : Img ℚ

/-- 39-42 `compute_derivatives` -/
def computeDerivatives (dx dy : ℚ) (U V : Img ℚ) (eo : Nat) : Except PyErr Derivs :=
  match gradient2 U dx dy eo with
  | .error e => .error e
  | .ok gU => match gradient2 V dx dy eo with
    | .error e => .error e
    | .ok gV => .ok ⟨gU.1, gU.2, gV.1, gV.2⟩

/-- 20-22 `compute_ken` for two arrays of one shape. -/
def ken (U V : Img ℚ) : Img ℚ := ⟨U.ny, U.nx, fun j i => (U.get j i ^ 2 + V.get j i ^ 2) / 2⟩

/-- 25-27 `compute_norm` for two arrays of one shape: the argument of the square root. -/
def norm2 (U V : Img ℚ) : Img ℚ := ⟨U.ny, U.nx, fun j i => U.get j i ^ 2 + V.get j i ^ 2⟩

/-- 56 `PIV_Postproc`: the attributes.  `dx` and `dy` are not set by the class (the user can set them); the derivatives are set by
`compute_rot` and `compute_div`. -/
structure Post where
  X : Img ℚ
  Y : Img ℚ
  U : Img ℚ
  V : Img ℚ
  dx : Option ℚ := none
  dy : Option ℚ := none
  derivs : Option Derivs := none

/-- 57-73 `PIV_Postproc.__init__`, from the arrays of the file. -/
def mkPost (r : Light) : Except PyErr Post :=
  match computeGrid r.xs r.ys r.us r.vs with
  | .error e => .error e
  | .ok (X, Y, U, V) => .ok { X, Y, U, V }

/-- 93-97 `PIV_Postproc.compute_derivatives`; the argument `edge_order` is not used. -/
def Post.derivatives (p : Post) (_eo : Nat) : Except PyErr Derivs :=
  match p.dx with
  | none => .error .attributeError
  | some dx => match p.dy with
    | none => .error .attributeError
    | some dy => computeDerivatives dx dy p.U p.V 2

/-- 99-105 `PIV_Postproc.compute_rot`: the derivatives which are already computed are used. -/
def Post.rot (p : Post) (eo : Nat) : Post × Except PyErr (Img ℚ) :=
  match p.derivs with
  | some d => (p, zipImg (fun a b => a - b) d.dVdx d.dUdy)
  | none => match p.derivatives eo with
    | .error e => (p, .error e)
    | .ok d => ({ p with derivs := some d }, zipImg (fun a b => a - b) d.dVdx d.dUdy)

/-- 107-113 `PIV_Postproc.compute_div`: `~hasattr(...)` is -1 or -2, always true. -/
def Post.div (p : Post) (eo : Nat) : Post × Except PyErr (Img ℚ) :=
  match p.derivatives eo with
  | .error e => (p, .error e)
  | .ok d => ({ p with derivs := some d }, zipImg (fun a b => a + b) d.dUdx d.dVdy)

/-- 115-117 `PIV_Postproc.compute_ken` -/
def Post.energy (p : Post) : Img ℚ := ken p.U p.V

/-- 119-121 `PIV_Postproc.compute_norm`: the arguments are not used. -/
def Post.normSq (p : Post) (_U _V : Img ℚ) : Img ℚ := norm2 p.U p.V

/-- 89-91 `spatial_average`: sum of the values; the mean is this sum divided by the number of values. -/
def total (U : Img ℚ) : ℚ := ((List.range U.ny).map fun j => ((List.range U.nx).map fun i => U.get j i).sum).sum

def spatialAverage (U : Img ℚ) : ℚ := total U / (U.ny * U.nx : Nat)

/-! ## Series -/

/-- 172-180: the loop over the other files: each file is loaded as a `PIV_Postproc` (with its grid), its displacements are added as a line
(`np.vstack`: the lines have the same length). -/
def stackFiles (load : List Char → Except PyErr Light) : List (List Char) → List (List ℚ) → Except PyErr (List (List ℚ))
  | [], rows => .ok rows
  | p :: ps, rows => match load p with
    | .error e => .error e
    | .ok r => match mkPost r with
      | .error e => .error e
      | .ok _ => match rows.head? with
        | some row => if row.length = r.us.length ∧ row.length = r.vs.length then stackFiles load ps (rows ++ [r.us]) else .error .valueError
        | none => .error .valueError

/-- 214-219: the first call of `compute_grid` in the loop over the files: four values are unpacked in six names.  With one file the
displacements are not in lines: `deltaxs_final[0]` is a number (reshaped if the grid has one point).  The two components have the same
lengths, only those of `x` are kept. -/
def firstGrid (r : Light) (rows : List (List ℚ)) : Except PyErr Unit :=
  let row : Except PyErr (List ℚ) := match rows with
    | [us] => match us with
      | [] => .error .indexError
      | u :: _ => .ok [u]
    | us :: _ => .ok us
    | [] => .error .indexError
  match row with
  | .error e => .error e
  | .ok us => match computeGrid r.xs r.ys us us with
    | .error e => .error e
    | .ok _ => .error .valueError

/-- 161-180 `PIV_PostProc_serie.__init__` -/
def mkSerie (load : List Char → Except PyErr Light) : List (List Char) → Except PyErr Unit
  | [] => .error .indexError
  | p :: ps => match load p with
    | .error e => .error e
    | .ok r => match stackFiles load ps [r.us] with
      | .error e => .error e
      | .ok rows => firstGrid r rows

end Verif.OldPostproc
