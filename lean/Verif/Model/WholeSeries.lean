import Verif.Model.WholePiv
import Verif.Model.WholeRun

/-!
# A whole computation of PIV, from the files of the images to the files of the vectors

`Model/WholeRun.lean` (executors, processes, files) with the velocity computed by `Model/WholePiv.lean` (the passes of PIV).
`/repo/src/fluidimage/topologies/piv.py` 87-235, `/repo/src/fluidimage/works/piv/multipass.py` 107-190.

Simplification: the couples of a process are computed by a new work, see C75 (all the images of the series have the same shape).
-/

namespace Verif.WholeSeries
open Verif Verif.TryWork Verif.PivGrid Verif.Mask Verif.ResultsFiles Verif.Multipass Verif.WholePiv

/-- The functions of the passes for a couple which is already masked with `params.mask` (the couples made by the topology,
topologies/piv.py 220-225): data_objects/piv.py 137-148, `apply_mask` does nothing. -/
noncomputable def maskedPasses (cfg : Config) : Passes Images Data := { passes cfg with mask := fun c => .ok c }

/-- `WorkPIV(params).calcul(couple)` for such a couple (topologies/piv.py 145-151). -/
noncomputable def pivMasked (cfg : Config) (c : Images) : Except PyErr (List Data) :=
  match build cfg.passes with
  | .error e => .error e
  | .ok ws => (Multipass.calcul (maskedPasses cfg) c ws).2

/-- What is around a computation: the files of the images, the series, and the names. -/
structure World where
  exist : Txt → Bool
  imread : Txt → Except PyErr (Img Int)
  abspath : Txt → Txt
  S : TryWork.Series
  dir : Txt
  f : Option (Txt → Img Int → Except PyErr (Img Int))
  save : Result (List Data) → Except PyErr Unit
  images : Int → Txt × Txt
  fileName : Result (List Data) → Txt
  nameOf : Int → Txt

/-- The computation of PIV with the parameters `cfg` (topologies/piv.py 87-165). -/
noncomputable def computation (cfg : Config) (W : World) : WholeRun.Computation (List Data) where
  E := ⟨W.exist, W.imread, W.abspath, fun a b => pivMasked cfg (a, b)⟩
  S := W.S
  dir := W.dir
  mask := cfg.mask
  f := W.f
  save := W.save
  images := W.images
  fileName := W.fileName
  nameOf := W.nameOf

end Verif.WholeSeries
