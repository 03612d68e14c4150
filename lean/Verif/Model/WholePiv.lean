import Verif.Model.Multipass
import Verif.Model.LaterPass
import Verif.Model.Fix

/-!
# Model of a whole computation of PIV

`/repo/src/fluidimage/works/piv/multipass.py` 107-190 (`WorkPIV.__init__`, `calcul`): the passes of `Model/Multipass.lean`
with the models of what they do: the mask (`Model/Mask.lean`), the windows (`Model/PivGrid.lean`), the correlations, the peaks
and the loop over the vectors (`Model/LaterPass.lean`, `Model/LoopVectors.lean`), the removal of the false vectors
(`Model/Fix.lean`) and the interpolations (`Model/ApplyInterp.lean`).
`/repo/src/fluidimage/works/piv/singlepass.py` 143-190 (first pass), 733-785 (later passes), 822-863 (positions of the vectors),
`/repo/src/fluidimage/calcul/correl.py` 68-73 (`parse_displacement_max`).

Simplifications.  Those of these models: the pixels are integers, the other numbers are rationals or NaN (`none`), `rnd`
converts the results of the formulas with real numbers.  The correlation is done with the FFT (classes based on NumPy or
FFTW), which needs windows of the same shape for the two images: `shape_crop_im1` is `None`.  The couple is not yet masked
when it is given.  The correlation maps stored in a result are only kept as the function which refines secondary peaks.
-/

namespace Verif.WholePiv
open Verif Verif.PivGrid Verif.Correl Verif.LoopVectors Verif.Multipass

/-- `params.piv0.displacement_max`: `None`, a number, or a text like "50%". -/
inductive DisplMax where
  | none
  | number (q : ℚ)
  | percent (q : ℚ)
deriving DecidableEq

/-- correl.py 68-73 `parse_displacement_max`, for windows of shape `(n0, n1)`. -/
def DisplMax.parse (d : DisplMax) (n0 n1 : Nat) : Option ℚ := match d with
  | .none => Option.none
  | .number q => some q
  | .percent q => some (q / 100 * (max n0 n1 : Nat))

/-- The parameters of the computation, and what is not modelled. -/
structure Config where
  /-- `params.multipass.number`, `coeff_zoom`, `params.piv0.shape_crop_im0`, `params.piv0.grid.overlap` -/
  number : Int
  zoom : Zoom
  shape : Crop
  overlap : ℚ
  /-- `params.mask.strcrop` -/
  mask : Mask.MaskParams
  /-- `params.piv0.method_correl` -/
  lib : LaterPass.Lib
  displMax : DisplMax
  /-- `params.piv0.particle_radius`, `nb_peaks_to_search`, `method_subpix`, and the half size used by the sub-pixel methods -/
  radius : Nat
  nbPeaks : Nat
  method : Method
  nsub : Nat
  /-- `params.fix` -/
  correlMin : ℚ
  threshold : Option ℚ
  fixMax : Option ℚ
  /-- `params.multipass.use_tps`, `subdom_size`, `threshold_tps` -/
  interp : ApplyInterp.Params
  /-- the conversion of the results of the formulas with real numbers, the pseudo-inverse used by the Gaussian fit, the
  content of the arrays made by `np.empty`, the conversion of NaN to an integer, and the interpolations of SciPy -/
  rnd : ℝ → ℚ
  pinv : Matrix (Fin 5) (Fin (2 * nsub + 1) × Fin (2 * nsub + 1)) ℝ
  corrJunk : ℕ → ℕ → ℝ
  junk : Work → Nat → Option ℚ
  nanInt : Int
  ext : ApplyInterp.Ext

/-- The parameters used by the constructor. -/
def Config.passes (c : Config) : Multipass.Params := ⟨c.number, c.zoom, c.shape, none, c.overlap⟩

/-- The parameters of the removal of the false vectors. -/
def Config.fix (c : Config) : Fix.Params := ⟨c.correlMin, c.threshold, c.fixMax, c.nbPeaks⟩

/-- The parameters of one pass. -/
def Config.pass (c : Config) (w : Work) : LaterPass.Params :=
  let n0 := w.win0.1.toNat
  let n1 := w.win0.2.toNat
  ⟨c.rnd, c.lib, c.corrJunk, n0, n1, c.displMax.parse n0 n1, c.radius, c.nbPeaks, c.method, c.nsub, c.pinv, w.subpix c.passes⟩

/-- A couple of images. -/
abbrev Images := Img Int × Img Int

/-- `im.min()`: `ValueError` for an empty image. -/
def imMin (im : Img Int) : Except PyErr Int :=
  match ((List.range im.ny).flatMap fun i => (List.range im.nx).map fun j => im.get i j).min? with
  | none => .error .valueError
  | some m => .ok m

/-- 206-207: the two minima. -/
def minima (c : Images) : Except PyErr (Int × Int) :=
  match imMin c.1 with
  | .error e => .error e
  | .ok m0 => match imMin c.2 with
    | .error e => .error e
    | .ok m1 => .ok (m0, m1)

/-- The fields of a `HeavyPIVResults`.  `rows` and `cols`: the lengths of `iyvecs` and `ixvecs` of the work which made the
result; `pos`: `xs, ys`; `res`: `deltaxs, deltays, correls_max, errors` and the fields added by the fix; `input`:
`deltaxs_input, deltays_input`; `subpix`: the refinement with the stored map of a vector; `interp`: the fields added by
`apply_interp` (its vectors are those of `pos` and `res`). -/
structure Data where
  rows : Nat
  cols : Nat
  pos : List ApplyInterp.Pos
  res : Fix.Res
  secondary : Nat → Option (List Fix.Peak)
  input : Option ((Nat → ℚ) × (Nat → ℚ))
  subpix : Nat → ℚ → ℚ → Except SubErr Fix.Vec
  interp : ApplyInterp.Res

/-- The vectors of a result. -/
def Data.vectors (d : Data) : List ApplyInterp.Vector :=
  d.pos.zipIdx.map fun p => ⟨p.1.1, p.1.2, d.res.dx p.2, d.res.dy p.2⟩

/-- The result as seen by `apply_interp`. -/
def Data.toRes (d : Data) : ApplyInterp.Res := { d.interp with vectors := d.vectors }

/-- with_mask.py 15-32: the translation of the mask. -/
def offset (cfg : Config) : Except PyErr ApplyInterp.Pos :=
  match Mask.toOriginal cfg.mask 0 0 with
  | .error e => .error e
  | .ok o => .ok ((o.1 : ℚ), (o.2 : ℚ))

/-- A secondary peak stored by the loop; its correlation is a number. -/
def toPeak (d : Displ) : Fix.Peak := ⟨d.dx, d.dy, d.correlMax.getD 0⟩

/-- fix.py 197-203: the refinement of a secondary peak, with the map stored for the vector (its displacement is an integer);
the map is the one modified by the search of the peaks. -/
noncomputable def storedSubpix (P : LaterPass.Params) (ws : List (Img Int × Img Int)) (i : Nat) (x y : ℚ) : Except SubErr Fix.Vec :=
  match ws[i]? with
  | none => .ok (none, none)
  | some w =>
    let cn := LaterPass.corr P w.1 w.2
    let m := match LaterPass.peaks P cn.1 cn.2 with
      | .ok (_, _, m) => m
      | .error _ => cn.1
    match LaterPass.subpix P ⌊x⌋ ⌊y⌋ m with
    | .error e => .error e
    | .ok r => .ok (r.map Prod.fst, r.map Prod.snd)

/-- singlepass.py 173-190 and 768-785: the result made from the arrays filled by the loop, at the positions `pos` (in the
coordinates of the masked images). -/
noncomputable def result (cfg : Config) (P : LaterPass.Params) (g : Grid) (off : ApplyInterp.Pos) (pos : List ApplyInterp.Pos)
    (ws : List (Img Int × Img Int)) (input : Option ((Nat → ℚ) × (Nat → ℚ))) (s : State) : Data where
  rows := g.iyvecs.length
  cols := g.ixvecs.length
  pos := pos.map fun p => (p.1 + off.1, p.2 + off.2)
  res := ⟨s.deltaxs, s.deltays, s.correlsMax, s.errors.map fun e => (e.1, [.earlier e.2]), none, []⟩
  secondary := fun i => (s.secondaryPeaks i).map fun l => l.map toPeak
  input := input
  subpix := storedSubpix P ws
  interp := ⟨[], none, none, none, none, none, none⟩

/-- singlepass.py 248-260 and 288-289: the two windows of a vector of the first pass. -/
def firstWindows (P : LaterPass.Params) (m0 m1 : Int) (c : Images) (g : Int × Int) : Img Int × Img Int :=
  let p := npad P.n0 P.n1
  (crop P.n0 P.n1 (g.1 + p) (g.2 + p) (pad p m0 c.1), crop P.n0 P.n1 (g.1 + p) (g.2 + p) (pad p m1 c.2))

/-- singlepass.py 162-190, first pass. -/
noncomputable def first (cfg : Config) (w : Work) (g : Grid) (c : Images) : Except PyErr Data :=
  let P := cfg.pass w
  match minima c with
  | .error e => .error e
  | .ok (m0, m1) =>
    let ws := g.points.map (firstWindows P m0 m1 c)
    match loopVectors (LaterPass.env P) (cfg.junk w) ws none with
    | .error e => .error e
    | .ok s => match offset cfg with
      | .error e => .error e
      | .ok off => .ok (result cfg P g off (g.points.map fun p => ((p.1 : ℚ), (p.2 : ℚ))) ws none s)

/-- singlepass.py 822-863: the positions of the vectors of a later pass, for rounded estimates. -/
def laterPositions (sh : Nat × Nat) (g : Grid) (ds : List (Int × Int)) : List ApplyInterp.Pos :=
  List.zipWith (fun p d => ((centres sh.1 sh.2 p.1 p.2 d.1 d.2).xs, (centres sh.1 sh.2 p.1 p.2 d.1 d.2).ys)) g.points ds

/-- singlepass.py 750-785, later pass, from the result `d` of the previous one: this result completed by `apply_interp`, and
the result of the pass. -/
noncomputable def later (cfg : Config) (w : Work) (g : Grid) (sh : Nat × Nat) (c : Images) (d : Data) : Except PyErr (Data × Data) :=
  let P := cfg.pass w
  match offset cfg with
  | .error e => .error e
  | .ok off => match ApplyInterp.applyInterp cfg.ext ⟨cfg.interp, g, off⟩ false d.toRes with
    | (_, .error e) => .error e
    | (r, .ok ()) => match minima c with
      | .error e => .error e
      | .ok (m0, m1) =>
        let approx := r.approx.getD []
        let ds := approx.map fun a => (LaterPass.toInt cfg.nanInt a.1, LaterPass.toInt cfg.nanInt a.2)
        match LaterPass.run P (cfg.junk w) cfg.nanInt m0 m1 c.1 c.2 sh g.points approx with
        | .error e => .error e
        | .ok s => .ok ({ d with interp := r }, result cfg P g off (laterPositions sh g ds)
            (List.zipWith (LaterPass.windows P m0 m1 c.1 c.2 sh) g.points ds)
            (some (fun i => (((ds.getD i (0, 0)).1 : Int) : ℚ), fun i => (((ds.getD i (0, 0)).2 : Int) : ℚ))) s)

/-- fix.py 66-243 -/
def fix (cfg : Config) (d : Data) : Except PyErr Data :=
  match Fix.calcul d.rows d.cols cfg.fix ⟨d.secondary, d.input, d.subpix⟩ d.res with
  | .error e => .error e
  | .ok r => .ok { d with res := r }

/-- multipass.py 185-188: `apply_interp(piv_result, last=True)`. -/
def final (cfg : Config) (g : Grid) (d : Data) : Final Data :=
  match offset cfg with
  | .error e => .raised e
  | .ok off => match ApplyInterp.applyInterp cfg.ext ⟨cfg.interp, g, off⟩ true d.toRes with
    | (r, .ok ()) => .done { d with interp := r }
    | (r, .error .interpError) => .interpError { d with interp := r }
    | (_, .error e) => .raised e

/-- data_objects/piv.py 137-160: the two images are masked. -/
def maskImages (cfg : Config) (c : Images) : Except PyErr Images :=
  match Mask.maskArray (some cfg.mask) c.1 with
  | .error e => .error e
  | .ok a => match Mask.maskArray (some cfg.mask) c.2 with
    | .error e => .error e
    | .ok b => .ok (a, b)

/-- The functions of the passes. -/
noncomputable def passes (cfg : Config) : Passes Images Data where
  mask := maskImages cfg
  shape := fun c => (c.1.ny, c.1.nx)
  first := fun w g _ c => first cfg w g c
  later := fun w g sh c d => later cfg w g sh c d
  fix := fun _ d => fix cfg d
  final := fun _ g d => final cfg g d

/-- `WorkPIV(params).calcul(couple)`: the results of the passes. -/
noncomputable def piv (cfg : Config) (c : Images) : Except PyErr (List Data) :=
  match build cfg.passes with
  | .error e => .error e
  | .ok ws => (Multipass.calcul (passes cfg) c ws).2

end Verif.WholePiv
