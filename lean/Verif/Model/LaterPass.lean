import Verif.Model.CorrelFft
import Verif.Model.Subpix
import Verif.Model.ApplyInterp
import Verif.Model.TimeFormat

/-!
# Model of a PIV pass with displaced windows

`/repo/src/fluidimage/works/piv/singlepass.py` 733-785 (`WorkPIVFromDisplacement.calcul`), with the FFT correlations
(`Model/CorrelFft.lean`), the search of the peaks (`Model/Correl.lean`), the sub-pixel methods (`Model/Subpix.lean`), the
windows (`Model/PivGrid.lean`) and the loop over the vectors (`Model/LoopVectors.lean`).

Simplifications.  The two windows have the same shape (what the FFT methods need).  The results of the formulas with real
numbers are converted to numbers by the function `rnd` (a parameter).  The mask is not modelled here.  The estimates fit
in 32 bits.
-/

namespace Verif.LaterPass
open Verif Verif.PivGrid Verif.Correl Verif.LoopVectors

/-- The library used for the transforms. -/
inductive Lib where
  | numpy | fftw
deriving DecidableEq

/-- The parameters of a pass. -/
structure Params where
  rnd : ℝ → ℚ
  lib : Lib
  /-- content of the arrays made by `np.empty` (correl.py 43-55) -/
  junk : ℕ → ℕ → ℝ
  n0 : Nat
  n1 : Nat
  dmax : Option ℚ
  radius : Nat
  nbPeaks : Nat
  method : Method
  nsub : Nat
  pinv : Matrix (Fin 5) (Fin (2 * nsub + 1) × Fin (2 * nsub + 1)) ℝ
  /-- 280: `index_pass == params.multipass.number - 1` -/
  last : Bool

/-- A window as real numbers. -/
def pixels (w : Img Int) : ℕ → ℕ → ℝ := fun i j => (w.get i j : ℝ)

/-- 314: `self.correl(im0crop, im1crop)` -/
noncomputable def corr (P : Params) (w0 w1 : Img Int) : Map × ℚ :=
  let r := match P.lib with
    | .numpy => CorrelFft.npCorrel P.junk P.n0 P.n1 (pixels w0) (pixels w1)
    | .fftw => CorrelFft.fftwCorrel P.junk P.n0 P.n1 (pixels w0) (pixels w1)
  (⟨P.n0, P.n1, fun i j => some (P.rnd (r.1.get i j))⟩, P.rnd r.2)

/-- correl.py 561-568 and 226-275: the displacement, the other peaks and the map after the call (modified in place by the
maximum displacement, 566, and by the second chance, 233-236; 251 is a copy). -/
def peaks (P : Params) (c : Map) (norm : ℚ) : Except (Err Displ) (Displ × Option (List Displ) × Map) :=
  let k := fftCls P.n0 P.n1 P.dmax P.radius P.nbPeaks
  let c := match P.dmax with
    | none => c
    | some d => maskLarge P.n0 P.n1 d c
  match displacements k c norm, firstPeak k c norm with
  | .ok (d, o), .ok (_, c) => .ok (d, o, c)
  | .ok _, .error e => .error e
  | .error e, _ => .error e

/-- The map as real numbers. -/
def realMap (c : Map) : Subpix.RMap := ⟨c.ny, c.nx, fun i j => (((c.get i.toNat j.toNat).getD 0 : ℚ) : ℝ)⟩

/-- Is there a NaN in the crop used by the sub-pixel method? -/
def HasNan (n : Nat) (c : Map) (ix iy : Int) : Prop :=
  ∃ x y : Int, |x| ≤ n ∧ |y| ≤ n ∧ c.get (iy + y).toNat (ix + x).toNat = none

open Classical in
/-- correl.py 277-281 `apply_subpix`; with a NaN in the crop, the formulas give NaN (the centroid too, which is used when
the Gaussian fit gives NaN). -/
noncomputable def subpix (P : Params) (dx dy : Int) (c : Map) : Except SubErr (Option (ℚ × ℚ)) :=
  let k := fftCls P.n0 P.n1 P.dmax P.radius P.nbPeaks
  let i := k.indices dx dy
  match Subpix.computeSubpix P.method P.nsub P.pinv (realMap c) i.1 i.2 with
  | .error .closeBoundary => .error .closeBoundary
  | .error .wrongSubpix => if P.method ≠ .noSubpix ∧ HasNan P.nsub c i.1 i.2 then .ok none else .error .wrongSubpix
  | .ok d => if P.method ≠ .noSubpix ∧ HasNan P.nsub c i.1 i.2 then .ok none
    else match d with
      | .fin x y => .ok (some ((k.ix0 : ℚ) - P.rnd x, (k.iy0 : ℚ) - P.rnd y))
      | .inf => .ok none
      | .nan => .ok none

/-- The functions used by the loop over the vectors. -/
noncomputable def env (P : Params) : Env :=
  ⟨P.n0, P.n1, P.n0, P.n1, corr P, peaks P, if P.last then some (subpix P) else none⟩

/-- 752-753 `np.round(..).astype("int32")`; the conversion of NaN gives an unknown number. -/
def toInt (nanInt : Int) (d : Option ℚ) : Int :=
  match d with
  | none => nanInt
  | some q => TimeFormat.roundEven q

/-- 202-209, 283-289, 822-866: the two windows of a vector, for a point of the grid `g` and a rounded estimate `d`;
`m0` and `m1` are the minima of the images, `shape` is the shape memorised by the work. -/
def windows (P : Params) (m0 m1 : Int) (im0 im1 : Img Int) (shape : Nat × Nat) (g d : Int × Int) : Img Int × Img Int :=
  let c := centres shape.1 shape.2 g.1 g.2 d.1 d.2
  let p := npad P.n0 P.n1
  (crop P.n0 P.n1 (c.ix0 + p) (c.iy0 + p) (pad p m0 im0), crop P.n0 P.n1 (c.ix1 + p) (c.iy1 + p) (pad p m1 im1))

/-- 745-764: the loop over the vectors of the grid with the estimates `approx` given by `apply_interp`. -/
noncomputable def run (P : Params) (junk : Nat → Option ℚ) (nanInt : Int) (m0 m1 : Int) (im0 im1 : Img Int)
    (shape : Nat × Nat) (points : List (Int × Int)) (approx : List ApplyInterp.Delta) : Except PyErr State :=
  let ds := approx.map fun a => (toInt nanInt a.1, toInt nanInt a.2)
  loopVectors (env P) junk (List.zipWith (windows P m0 m1 im0 im1 shape) points ds)
    (some (fun i => (((ds.getD i (0, 0)).1 : Int) : ℚ), fun i => (((ds.getD i (0, 0)).2 : Int) : ℚ)))

end Verif.LaterPass
