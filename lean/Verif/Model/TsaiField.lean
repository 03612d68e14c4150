import Verif.Model.Calibration

/-!
# Model of the conversion of a field of displacements with the Tsai calibration

`/repo/src/fluidimage/calibration/calib_tsai.py` 13-37 (`Calibration.pix2phys_UV`), for numbers (the arrays are converted element by element).
-/

namespace Verif.TsaiField
open Verif.Calib

/-- 13-37 `pix2phys_UV`: the position and the displacement. -/
noncomputable def pix2physUV (p : Tsai) (X Y dx dy : ℝ) (level : ℕ) (nbypix : ℝ) (angle : Bool) : Except Err (V3 × V3) :=
  match pix2phys p X Y level nbypix angle with
  | .error e => .error e
  | .ok v =>
    match pix2phys p (X + dx / 2) (Y + dy / 2) level nbypix angle with
    | .error e => .error e
    | .ok b =>
      match pix2phys p (X - dx / 2) (Y - dy / 2) level nbypix angle with
      | .error e => .error e
      | .ok a => .ok (v, b.sub a)

end Verif.TsaiField
