import Verif.Model.Mask
import Mathlib.Analysis.SpecialFunctions.Sqrt

/-!
# Model of the optical flow

`/repo/src/fluidimage/works/optical_flow.py` 30-69 (`optical_flow`), 194-230 (`WorkOpticalFlow.calcul`);
`/repo/src/fluidimage/works/with_mask.py` 25-32.

Real numbers instead of floats.  The detection of the features and the tracking (OpenCV) are parameters of the model.
-/

namespace Verif.OpticalFlow
open Verif.Mask

abbrev P2 := ℝ × ℝ

inductive Err where
  | cv2
  | badCrop
deriving DecidableEq

/-- What OpenCV computes for a couple of images: 39 the features (`None` if there is no feature), 41-46 the tracking, feature
by feature, from the first image to the second and back, with a status (0: the feature is lost). -/
structure Cv where
  features : Option (List P2)
  forward : P2 → P2 × Bool
  backward : P2 → P2 × Bool

def sub2 (a b : P2) : P2 := (a.1 - b.1, a.2 - b.2)

/-- `arr[mask]` for an array of points and an array of booleans of the same length. -/
def select : List P2 → List Bool → List P2
  | p :: ps, true :: bs => p :: select ps bs
  | _ :: ps, false :: bs => select ps bs
  | _, _ => []

/-- 51-53: `diff < threshold` -/
noncomputable def correctValues (thr : ℝ) (positions0 positions0r : List P2) : List Bool :=
  List.zipWith (fun a b => decide (max |a.1 - b.1| |a.2 - b.2| < thr)) positions0 positions0r

/-- 57-65: the condition for the norms; `none` if `vmin` and `vmax` are both `None`.  (58-62: 0 and infinity.) -/
noncomputable def normCond (vmin vmax : Option ℝ) (displacements : List P2) : Option (List Bool) :=
  match vmin, vmax with
  | none, none => none
  | _, _ => some (displacements.map fun d =>
      let norm := Real.sqrt (d.1 ^ 2 + d.2 ^ 2)
      decide (vmin.getD 0 < norm) && (match vmax with | none => true | some v => decide (norm < v)))

/-- 30-69 `optical_flow`: the positions and the displacements. -/
noncomputable def opticalFlow (cv : Cv) (thr : ℝ) (vmin vmax : Option ℝ) : Except Err (List P2 × List P2) :=
  match cv.features with
  | none => .error .cv2
  | some positions0 =>
    let positions1 := positions0.map fun p => (cv.forward p).1
    let positions0r := positions1.map fun p => (cv.backward p).1
    let displacements := List.zipWith sub2 positions1 positions0
    let correct := correctValues thr positions0 positions0r
    let positions := select positions0 correct
    let displacements := select displacements correct
    match normCond vmin vmax displacements with
    | none => .ok (positions, displacements)
    | some cond => .ok (select positions cond, select displacements cond)

/-- `xs + start` of `with_mask.py` 28-31. -/
noncomputable def addStart (x : ℝ) : Option Int → ℝ
  | none => x
  | some s => x + s

/-- Results of `calcul`: `xs`, `ys`, `deltaxs`, `deltays`. -/
structure Result where
  xs : List ℝ
  ys : List ℝ
  deltaxs : List ℝ
  deltays : List ℝ

/-- 207-228 of `calcul`, after the mask has been applied to the images.  `strcrop`: `params.mask.strcrop`. -/
noncomputable def calcul (cv : Cv) (thr : ℝ) (vmin vmax : Option ℝ) (strcrop : Option (List Char)) : Except Err Result :=
  match opticalFlow cv thr vmin vmax with
  | .error e => .error e
  | .ok (positions, displacements) =>
    let xs := positions.map Prod.fst
    let ys := positions.map Prod.snd
    match strcrop with
    | none => .ok ⟨xs, ys, displacements.map Prod.fst, displacements.map Prod.snd⟩
    | some str =>
      match slicesOf str with
      | .error _ => .error .badCrop
      | .ok [sy, sx] => .ok ⟨xs.map fun x => addStart x sx.start, ys.map fun y => addStart y sy.start,
          displacements.map Prod.fst, displacements.map Prod.snd⟩
      | .ok _ => .error .badCrop

end Verif.OpticalFlow
