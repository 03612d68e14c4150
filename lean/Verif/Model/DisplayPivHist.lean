import Verif.Model.DisplayPiv

/-!
# Model of the histograms of the displacements in the window of a PIV result

`/repo/src/fluidimage/data_objects/display_piv.py` 217-238 (`hist=True`).  Not modelled: infinite displacements, the bins (matplotlib),
and the histogram of the correlations.
-/

namespace Verif.DisplayPivHist
open Verif Verif.DisplayPiv

/-- 220-225: `np.isnan(deltaxs) + np.isnan(deltays)`, element by element. -/
def badMask (us vs : List Val) : List Bool := us.zipWith (fun u v => u.isNone || v.isNone) vs

/-- `array[~mask]` -/
def unmasked : List Val → List Bool → List Val
  | a :: l, b :: mask => if b then unmasked l mask else a :: unmasked l mask
  | _, _ => []

/-- 131-155 and 217-229: the values of the two histograms (`img`: there are images). -/
def histData (img : Bool) (interp : Interp) (r : Res) : Except PyErr (List Val × List Val) :=
  match field r (which r interp) with
  | .error e => .error e
  | .ok f =>
    let f' := if img then f else f.flip
    let mask := badMask f'.us f'.vs
    .ok (unmasked f'.us mask, unmasked f'.vs mask)

end Verif.DisplayPivHist
