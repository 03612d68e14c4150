import Verif.Model.Tps
import Verif.Model.PivGrid

/-!
# Model of the interpolation of PIV results on the grid of a pass

`/repo/src/fluidimage/works/piv/singlepass.py` 409-563 (`BaseWorkPIV.apply_interp`) and
`/repo/src/fluidimage/calcul/interpolate/griddata.py` 11-27.

Simplifications.  Numbers are rationals (`none` is NaN in a displacement).  The arrays of a result have the same length: a result is a
list of vectors.  The change of coordinates of the mask is a translation (`Model/Mask.lean`).  The linear systems of the thin plate
splines (`Model/TpsWeights.lean`), their evaluation and the functions of SciPy are parameters (`Ext`).  The printed texts are not
modelled.
-/

namespace Verif.ApplyInterp
open Verif

/-- A position `(x, y)`. -/
abbrev Pos := ℚ × ℚ

/-- One vector of a result: `xs[i], ys[i], deltaxs[i], deltays[i]`. -/
structure Vector where
  x : ℚ
  y : ℚ
  dx : Option ℚ
  dy : Option ℚ
deriving DecidableEq

/-- `np.isnan(deltaxs) | np.isnan(deltays)`, negated.  singlepass.py 450-452. -/
def Vector.selected (v : Vector) : Bool := v.dx.isSome && v.dy.isSome

/-- An estimated displacement. -/
abbrev Delta := Option ℚ × Option ℚ

/-- The attributes of a `HeavyPIVResults` that `apply_interp` reads or writes (`none`: no such attribute).
`ixyApprox`: `ixvecs_approx, iyvecs_approx`; `approx`: `deltaxs_approx, deltays_approx`; the same with `final`;
`tps`: `deltaxs_tps, deltays_tps`; `smooth`: `xs_smooth, ys_smooth, deltaxs_smooth, deltays_smooth`. -/
structure Res where
  vectors : List Vector
  ixyApprox : Option (List Pos)
  ixyFinal : Option (List Pos)
  approx : Option (List Delta)
  final : Option (List Delta)
  tps : Option (List (List ℚ) × List (List ℚ))
  smooth : Option (List (Pos × Delta))

/-- What is not modelled here.  `solve centers values`: `compute_tps_weights` with the normalised smoothing coefficient (`none` for
`LinAlgError`); `eval centers weights p`: `np.dot(weights, tps_matrix)` at the position `p`; `linear` and `nearest`:
`scipy.interpolate.griddata` with the points and the values, at one position (`none` for NaN), or the exception it raises. -/
structure Ext where
  solve : List Pos → Tps.Solver
  eval : List Pos → List ℚ → Pos → ℚ
  linear : List Pos → List ℚ → Except PyErr (Pos → Option ℚ)
  nearest : List Pos → List ℚ → Except PyErr (Pos → Option ℚ)

/-- The value of `params.multipass.use_tps`. -/
inductive UseTps where
  | bool (b : Bool)
  | str (s : String)
  | int (n : Int)
deriving DecidableEq

/-- `params.multipass`. -/
structure Params where
  useTps : UseTps
  subdomSize : Nat
  threshold : Option ℚ

/-- singlepass.py 467-469: `use_tps is True or use_tps == "last" and last`. -/
def wantsTps (p : Params) (last : Bool) : Bool := match p.useTps with
  | .bool b => b
  | .str s => s == "last" && last
  | .int _ => false

/-- A work prepared with an image: its grid (`Model/PivGrid.lean`) and the translation of the mask. -/
structure Work where
  params : Params
  grid : PivGrid.Grid
  off : Pos

/-- The positions `(ixvecs_grid, iyvecs_grid)`. -/
def Work.points (w : Work) : List Pos := w.grid.points.map fun p => ((p.1 : ℚ), (p.2 : ℚ))

/-- `_xyoriginalimage_from_xymasked(self.ixvecs_grid, self.iyvecs_grid)`.  singlepass.py 433-447. -/
def Work.original (w : Work) : List Pos := w.points.map fun p => (p.1 + w.off.1, p.2 + w.off.2)

/-- griddata.py 11-27: the new positions are the points of `np.meshgrid(xnew, ynew)`; the NaN are replaced by the nearest value;
`flatten`: rows one after the other. -/
def griddata (E : Ext) (centers : List Pos) (values : List ℚ) (xnew ynew : List ℚ) : Except PyErr (List (Option ℚ)) :=
  let mesh := ynew.flatMap fun y => xnew.map fun x => (x, y)
  match E.linear centers values with
  | .error e => .error e
  | .ok lin => match E.nearest centers values with
    | .error e => .error e
    | .ok near => .ok (mesh.map fun q => match lin q with
      | some v => some v
      | none => near q)

/-- singlepass.py 500-505 and 551-556: `griddata` for the two components. -/
def griddataBoth (E : Ext) (w : Work) (centers : List Pos) (dxs dys : List ℚ) : Except PyErr (List Delta) :=
  let xnew := w.grid.ixvecs.map fun (i : Int) => (i : ℚ)
  let ynew := w.grid.iyvecs.map fun (i : Int) => (i : ℚ)
  match griddata E centers dxs xnew ynew with
  | .error e => .error e
  | .ok ax => match griddata E centers dys xnew ynew with
    | .error e => .error e
    | .ok ay => .ok (ax.zip ay)

/-- `arr[selection] = values`: NumPy refuses a mask of another length. -/
def putMask {α : Type} (mask : List Bool) (arr vals : List α) : Except PyErr (List α) :=
  if mask.length ≠ arr.length then .error .indexError
  else .ok (go mask arr vals)
where
  go : List Bool → List α → List α → List α
    | true :: m, _ :: a, v :: vs => v :: go m a vs
    | true :: m, x :: a, [] => x :: go m a []
    | false :: m, x :: a, vs => x :: go m a vs
    | _, _, _ => []

/-- The centers of one sub-domain: `self.centers[:, self.indices_domains[idx]]`. -/
def domCenters (centers : List Pos) (d : Tps.Dom) : List Pos := centers.filter fun p => d.contains p.1 p.2

/-- `tps.compute_tps_weights_subdom(values)` (thin_plate_spline_subdom.py 128-159). -/
def weights (E : Ext) (p : Params) (g : Tps.Grid) (centers : List Pos) (values : List ℚ) :
    Except Tps.TpsErr ((Nat → Option ℚ) × List (List ℚ)) :=
  Tps.weightsSubdom g centers.length (fun i => (centers.getD i (0, 0)).1) (fun i => (centers.getD i (0, 0)).2)
    (g.doms.map fun d => E.solve (domCenters centers d)) p.threshold (fun i => values.getD i 0)

/-- `tps.init_with_new_positions(new_positions)` and `tps.interpolate(weights_domains)` (thin_plate_spline_subdom.py 161-234). -/
def interpolate (E : Ext) (g : Tps.Grid) (centers : List Pos) (ws : List (List ℚ)) (newPos : List Pos) : List (Option ℚ) :=
  let xs := fun i => (newPos.getD i (0, 0)).1
  let ys := fun i => (newPos.getD i (0, 0)).2
  let vals := List.zipWith (fun d w => (d.indices newPos.length xs ys).map fun i => E.eval (domCenters centers d) w (xs i, ys i)) g.doms ws
  (List.range newPos.length).map (Tps.recombine g newPos.length xs ys vals)

/-- singlepass.py 515-531: the arrays "smooth" of the last pass.  `sx`, `sy`: smoothed displacements of the selected vectors. -/
def smoothArrays (r : Res) (finalPos : List Pos) (approx : List Delta) (sx sy : Nat → Option ℚ) : Except PyErr (List (Pos × Delta)) :=
  let selection := r.vectors.map Vector.selected
  let sel := r.vectors.filter Vector.selected
  match putMask selection finalPos (sel.map fun v => (v.x, v.y)) with
  | .error e => .error e
  | .ok ps => match putMask selection approx ((List.range sel.length).map fun i => (sx i, sy i)) with
    | .error e => .error e
    | .ok ds => .ok (ps.zip ds)

/-- singlepass.py 558-563. -/
def store (r : Res) (last : Bool) (ds : List Delta) : Res :=
  if last then { r with final := some ds } else { r with approx := some ds }

/-- singlepass.py 433-447. -/
def storePositions (w : Work) (last : Bool) (r : Res) : Res :=
  let r := if !last && r.ixyApprox.isNone then { r with ixyApprox := some w.original } else r
  if last && r.ixyFinal.isNone then { r with ixyFinal := some w.original } else r

/-- What is computed from the usable vectors: by `griddata`, or by the thin plate splines (weights, smoothed displacements and
estimates). -/
inductive Estimate where
  | griddata (ds : List Delta)
  | tps (wx wy : List (List ℚ)) (sx sy : Nat → Option ℚ) (ds : List Delta)

/-- singlepass.py 499-505, 551-556. -/
def viaGriddata (E : Ext) (w : Work) (centers : List Pos) (dxs dys : List ℚ) : Except PyErr Estimate :=
  match griddataBoth E w centers dxs dys with
  | .error e => .error e
  | .ok ds => .ok (.griddata ds)

/-- singlepass.py 480-515, with the fallback 498-505. -/
def viaTps (E : Ext) (w : Work) (centers : List Pos) (dxs dys : List ℚ) : Except PyErr Estimate :=
  match Tps.setup (centers.map Prod.fst) (centers.map Prod.snd) w.params.subdomSize 20 with
  | .error e => .error e
  | .ok g => match weights E w.params g centers dxs with
    | .error .linAlg => viaGriddata E w centers dxs dys
    | .error (.py e) => .error e
    | .ok (sx, wx) => match weights E w.params g centers dys with
      | .error .linAlg => viaGriddata E w centers dxs dys
      | .error (.py e) => .error e
      | .ok (sy, wy) => .ok (.tps wx wy sx sy ((interpolate E g centers wx w.points).zip (interpolate E g centers wy w.points)))

/-- singlepass.py 449-556, without the attributes: the positions of the usable vectors are in the coordinates of the masked image
(457-461). -/
def estimate (E : Ext) (w : Work) (last : Bool) (vectors : List Vector) : Except PyErr Estimate :=
  let sel := vectors.filter Vector.selected
  if sel.isEmpty then .error .interpError                                                    -- 454-455
  else
    let centers := sel.map fun v => (v.x - w.off.1, v.y - w.off.2)
    let dxs := sel.map fun v => v.dx.getD 0
    let dys := sel.map fun v => v.dy.getD 0
    if wantsTps w.params last then viaTps E w centers dxs dys else viaGriddata E w centers dxs dys

/-- `apply_interp(piv_results, last)`: the object after the call, and the exception.  singlepass.py 409-563. -/
def applyInterp (E : Ext) (w : Work) (last : Bool) (r0 : Res) : Res × Except PyErr Unit :=
  let r := storePositions w last r0
  match estimate E w last r.vectors with
  | .error e => (r, .error e)
  | .ok (.griddata ds) => (store r last ds, .ok ())
  | .ok (.tps wx wy sx sy ds) =>
    let r := { r with tps := some (wx, wy) }                                                 -- 507-508
    if last then                                                                             -- 517-533
      match smoothArrays r (r.ixyFinal.getD []) ds sx sy with
      | .error e => (r, .error e)
      | .ok sm => (store { r with smooth := some sm } last ds, .ok ())
    else (store r last ds, .ok ())

end Verif.ApplyInterp
