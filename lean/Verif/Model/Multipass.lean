import Verif.Model.PivGrid
import Verif.Model.Mask

/-!
# Model of the multipass PIV

`/repo/src/fluidimage/works/piv/multipass.py` 107-198 (`WorkPIV.__init__`, `calcul`, `_prepare_with_image`),
`/repo/src/fluidimage/works/piv/singlepass.py` 37-38, 52-87 (`_init_shape_crop`), 143-190 and 733-785 (`calcul` of the two
kinds of pass: order of the operations and memory of the grid), 671-682, 716-731 (constructors),
`/repo/src/fluidimage/postproc/piv.py` 65-109 (`get_grid_pixel`), `/repo/src/fluidimage/data_objects/piv.py` 112-124
(`shape_images` of a couple).

Simplifications.  The divisions of floats are exact (rational numbers).  `_init_correl` and the constructor of `WorkFIX`
are not modelled (they do not change the windows).  What a pass computes from its grid, the shape of the images memorised
by the work, the couple and the previous result is given by arbitrary functions (`Passes`): it is modelled elsewhere
(`Model/LoopVectors.lean`, `Model/Fix.lean`, `Model/Tps.lean`).
-/

namespace Verif.Multipass
open Verif Verif.PivGrid Verif.Mask

/-! ## Construction -/

/-- `params.multipass.coeff_zoom`: an integer, a sequence of numbers, or an object without length (a float). -/
inductive Zoom where
  | int (c : Int)
  | seq (cs : List ℚ)
  | noLen

/-- `params.piv0.shape_crop_im0` or `shape_crop_im1`: an integer, a list or a tuple, or something else. -/
inductive Crop where
  | int (n : Int)
  | seq (ns : List ℚ)
  | other

/-- The parameters used by the constructor. -/
structure Params where
  number : Int
  zoom : Zoom
  shape0 : Crop
  shape1 : Option Crop
  overlap : ℚ

/-- singlepass.py 56-65, 67-76 and multipass.py 131-140, 142-151: the pair of sizes. -/
def Crop.pair : Crop → Except PyErr (ℚ × ℚ)
  | .int n => .ok (n, n)
  | .seq [a, b] => .ok (a, b)
  | .seq _ => .error .notImplementedError
  | .other => .error .notImplementedError

/-- Python `int(x)` for a number: truncation towards zero. -/
def pyTrunc (x : ℚ) : Int := if 0 ≤ x then ⌊x⌋ else ⌈x⌉

/-- A work doing one pass: the attributes `index_pass`, `shape_crop_im0`, `shape_crop_im1`, `overlap`, and what
`_prepare_with_image` has put in the object (`imshape0` and the grid), if it has. -/
structure Work where
  index : Int
  win0 : Int × Int
  win1 : Int × Int
  overlap : ℚ
  memo : Option ((Nat × Nat) × Grid)
deriving DecidableEq

/-- singlepass.py 78-87, the end of `_init_shape_crop`. -/
def checkShapes (s0 s1 : ℚ × ℚ) : Except PyErr ((Int × Int) × (Int × Int)) :=
  if s1.1 > s0.1 ∨ s1.2 > s0.2 then .error .valueError
  else .ok ((pyTrunc s0.1, pyTrunc s0.2), (pyTrunc s1.1, pyTrunc s1.2))

/-- The two pairs of sizes: singlepass.py 53-76 and multipass.py 126-151. -/
def pairs (p : Params) : Except PyErr ((ℚ × ℚ) × (ℚ × ℚ)) :=
  match p.shape0.pair with
  | .error e => .error e
  | .ok s0 => match (p.shape1.getD p.shape0).pair with
    | .error e => .error e
    | .ok s1 => .ok (s0, s1)

/-- singlepass.py 671-682 `FirstWorkPIV.__init__` -/
def firstWork (p : Params) : Except PyErr Work :=
  if p.overlap ≥ 1 then .error .valueError
  else match pairs p with
    | .error e => .error e
    | .ok (s0, s1) => match checkShapes s0 s1 with
      | .error e => .error e
      | .ok (w0, w1) => .ok ⟨0, w0, w1, p.overlap, none⟩

/-- multipass.py 114-124: the coefficients of the passes 1, 2, … -/
def coeffs (p : Params) : Except PyErr (List ℚ) :=
  match p.zoom with
  | .int c => .ok (List.replicate (p.number - 1).toNat (c : ℚ))
  | .noLen => .error .typeError
  | .seq cs => if (cs.length : Int) = p.number - 1 then .ok cs else .error .valueError

/-- multipass.py 153-170: the loop over the coefficients; the sizes which are carried from a pass to the next one are not
truncated. -/
def laterWorks (overlap : ℚ) (i : Int) (s0 s1 : ℚ × ℚ) : List ℚ → Except PyErr (List Work)
  | [] => .ok []
  | c :: cs =>
    if c = 0 then .error .zeroDivisionError
    else
      let s0 := (s0.1 / c, s0.2 / c)
      let s1 := (s1.1 / c, s1.2 / c)
      match checkShapes s0 s1 with
      | .error e => .error e
      | .ok (w0, w1) => match laterWorks overlap (i + 1) s0 s1 cs with
        | .error e => .error e
        | .ok ws => .ok (⟨i, w0, w1, overlap, none⟩ :: ws)

/-- multipass.py 107-170 `WorkPIV.__init__`: the list `works_piv`. -/
def build (p : Params) : Except PyErr (List Work) :=
  match firstWork p with
  | .error e => .error e
  | .ok w => match coeffs p with
    | .error e => .error e
    | .ok cs => match pairs p with
      | .error e => .error e
      | .ok (s0, s1) => match laterWorks p.overlap 1 s0 s1 cs with
        | .error e => .error e
        | .ok ws => .ok (w :: ws)

/-- singlepass.py 280: is the sub-pixel refinement done by this work? -/
def Work.subpix (p : Params) (w : Work) : Bool := decide (w.index = p.number - 1)

/-! ## Grid -/

/-- singlepass.py 108-141 `_prepare_with_image`.  For a negative size `n` (and `overlap < 1`), the step
`n - round(overlap * n)` is at most 0: `AssertionError`. -/
def prepareGrid (w : Work) (shape : Nat × Nat) : Except PyErr Grid :=
  if w.win0.1 < 0 ∨ w.win0.2 < 0 then .error .assertionError
  else prepare shape.1 shape.2 w.win0.1.toNat w.win0.2.toNat w.overlap

/-- singlepass.py 159-160, 747-748: the grid is computed only if the object has no grid; a failure leaves the object
without grid. -/
def Work.grid (w : Work) (shape : Nat × Nat) : Work × Except PyErr ((Nat × Nat) × Grid) :=
  match w.memo with
  | some m => (w, .ok m)
  | none => match prepareGrid w shape with
    | .error e => (w, .error e)
    | .ok g => ({ w with memo := some (shape, g) }, .ok (shape, g))

/-! ## One couple -/

/-- What `apply_interp(.., last=True)` does (multipass.py 185-188): in the first two cases the object is modified and the
computation goes on. -/
inductive Final (D : Type) where
  | done (d : D)
  | interpError (d : D)
  | raised (e : PyErr)

/-- The functions of the passes: `C` couples, `D` the fields of a result.
`mask`: `couple.apply_mask`; `shape`: shape of the first array of the couple;
`first index grid imshape0 couple`: lines 162-190; `later index grid imshape0 couple previous`: lines 750-785, the first
component is the previous result modified by `apply_interp`; `fix`: `WorkFIX.calcul`; `final`: `apply_interp` with
`last=True`. -/
structure Passes (C D : Type) where
  mask : C → Except PyErr C
  shape : C → Nat × Nat
  first : Work → Grid → Nat × Nat → C → Except PyErr D
  later : Work → Grid → Nat × Nat → C → D → Except PyErr (D × D)
  fix : Work → D → Except PyErr D
  final : Work → Grid → D → Final D

variable {C D : Type}

/-- Attributes of the work on which the passes depend besides the grid: the memory is hidden. -/
def Work.fresh (w : Work) : Work := { w with memo := none }

/-- singlepass.py 143-190 then multipass.py 182: first pass and fix.  The masked couple is stored in the result. -/
def firstPass (P : Passes C D) (w : Work) (c : C) : Work × Except PyErr (C × D) :=
  match P.mask c with
  | .error e => (w, .error e)
  | .ok c => match w.grid (P.shape c) with
    | (w, .error e) => (w, .error e)
    | (w, .ok (sh, g)) => match P.first w.fresh g sh c with
      | .error e => (w, .error e)
      | .ok d => match P.fix w.fresh d with
        | .error e => (w, .error e)
        | .ok d => (w, .ok (c, d))

/-- singlepass.py 733-785 then multipass.py 182: a later pass and fix; the couple is the one of the previous result
(`deepcopy(couple)`, line 776). -/
def laterPass (P : Passes C D) (w : Work) (c : C) (d : D) : Work × Except PyErr (D × D) :=
  match w.grid (P.shape c) with
  | (w, .error e) => (w, .error e)
  | (w, .ok (sh, g)) => match P.later w.fresh g sh c d with
    | .error e => (w, .error e)
    | .ok (d, d') => match P.fix w.fresh d' with
      | .error e => (w, .error e)
      | .ok d' => (w, .ok (d, d'))

/-- multipass.py 185-188: `work_piv` is the last work of the loop. -/
def finish (P : Passes C D) (w : Work) (d : D) : Except PyErr D :=
  match w.memo with
  | none => .error .attributeError
  | some (_, g) => match P.final w.fresh g d with
    | .done d => .ok d
    | .interpError d => .ok d
    | .raised e => .error e

/-- multipass.py 180-190 after the first pass: `last` is the work of the previous pass and `d` its result. -/
def laterPasses (P : Passes C D) (c : C) (last : Work) (d : D) : List Work → List Work × Except PyErr (List D)
  | [] => ([], match finish P last d with
    | .error e => .error e
    | .ok d => .ok [d])
  | w :: ws => match laterPass P w c d with
    | (w, .error e) => (w :: ws, .error e)
    | (w, .ok (d, d')) => match laterPasses P c w d' ws with
      | (ws, .error e) => (w :: ws, .error e)
      | (ws, .ok ds) => (w :: ws, .ok (d :: ds))

/-- multipass.py 172-190 `calcul`: the works after the call and the results of the passes.  (The list of works is never
empty; for an empty list, line 186 would be an `UnboundLocalError`.) -/
def calcul (P : Passes C D) (c : C) : List Work → List Work × Except PyErr (List D)
  | [] => ([], .error .unboundLocalError)
  | w :: ws => match firstPass P w c with
    | (w, .error e) => (w :: ws, .error e)
    | (w, .ok (c, d)) => match laterPasses P c w d ws with
      | (ws, .error e) => (w :: ws, .error e)
      | (ws, .ok ds) => (w :: ws, .ok ds)

/-- The same object used for several couples, one after the other: the works at the end. -/
def calculs (P : Passes C D) (ws : List Work) : List C → List Work
  | [] => ws
  | c :: cs => calculs P (calcul P c ws).1 cs

/-! ## `get_grid_pixel` -/

/-- multipass.py 192-198 `_prepare_with_image`: the grids of all the works. -/
def prepareAll (shape : Nat × Nat) : List Work → Except PyErr (List Grid)
  | [] => .ok []
  | w :: ws => match prepareGrid w shape with
    | .error e => .error e
    | .ok g => match prepareAll shape ws with
      | .error e => .error e
      | .ok gs => .ok (g :: gs)

/-- Python indexing of a list, negative indices from the end. -/
def pyIndex {α : Type} (l : List α) (i : Int) : Except PyErr α :=
  let j := if i < 0 then i + l.length else i
  if j < 0 then .error .indexError
  else match l[j.toNat]? with
    | none => .error .indexError
    | some a => .ok a

/-- postproc/piv.py 65-109 `get_grid_pixel`: the positions along x and along y. -/
def getGridPixel (p : Params) (shape : Nat × Nat) (i : Int) : Except PyErr (List Int × List Int) :=
  match build p with
  | .error e => .error e
  | .ok ws => match prepareAll shape ws with
    | .error e => .error e
    | .ok gs => match pyIndex gs i with
      | .error e => .error e
      | .ok g => .ok (g.ixvecs, g.iyvecs)

/-- data_objects/piv.py 123: the shape stored with the couple is the one of the arrays before the mask. -/
def shapeImages {α : Type} (im : Img α) : Nat × Nat := (im.ny, im.nx)

/-- data_objects/piv.py 124, 164 and singlepass.py 157: the arrays used by the passes. -/
def usedImage {α : Type} (pm : MaskParams) (im : Img α) : Except PyErr (Img α) := maskArray (some pm) im

/-- singlepass.py 433-447: the positions of the vectors stored in the result are those of the grid, in the coordinates of
the image before the mask. -/
def storedPositions (pm : MaskParams) (g : Grid) : Except PyErr (List (Int × Int)) :=
  g.points.mapM (fun q => toOriginal pm q.1 q.2)

end Verif.Multipass
