import Verif.Py.Basic

/-!
# Mode "complete": which items have to be computed

Models `compute_indices_to_be_computed` of
* `/repo/src/fluidimage/topologies/base.py:600-612` (topologies from images: Image2Image, BOS, surface tracking),
* `/repo/src/fluidimage/topologies/piv.py:166-173` (PIV, optical flow),
* `/repo/src/fluidimage/topologies/preproc.py:267-281` (preprocessing),

which all have the same form: loop over the items of the serie(s), skip those whose result path exists.
The files of the result directory are a function from names to contents (`none`: the path does not exist).
-/

namespace Verif.Complete

variable {ι ν γ : Type}

/-- Files of the result directory. -/
abbrev Files (ν γ : Type) := ν → Option γ

/-- The loop of `compute_indices_to_be_computed`: `acc` is the list being filled with `append`.
(The hook `_fix_indices_images`, base.py:611, only does something for BOS, see `Verif.Model.Bos`.) -/
def loop (name : ι → ν) (files : Files ν γ) : List ι → List ι → List ι
  | [], acc => acc
  | i :: items, acc =>
    if (files (name i)).isSome then loop name files items acc
    else loop name files items (acc ++ [i])

/-- `compute_indices_to_be_computed()` -/
def indicesToBeComputed (name : ι → ν) (items : List ι) (files : Files ν γ) : List ι :=
  loop name files items []

variable [DecidableEq ν]

/-- Saving the result of an item: the file is (over)written. -/
def save (files : Files ν γ) (n : ν) (c : γ) : Files ν γ := fun n' => if n' = n then some c else files n'

/-- The works of the topology run for the items of `done`, in this order, each saving its result. -/
def runItems (name : ι → ν) (compute : ι → γ) (files : Files ν γ) (done : List ι) : Files ν γ :=
  done.foldl (fun files i => save files (name i) (compute i)) files

end Verif.Complete
