import Verif.Model.PreprocSave

/-!
# Formats of the preprocessed images

Model of `PreprocResults.save` (`src/fluidimage/data_objects/preproc.py` lines 154-171), of `get_name_preproc` (lines
63-81, in `Verif.Names.namePreproc`) and of `TopologyPreproc.compute_indices_to_be_computed` and `save_preproc_object`
(`src/fluidimage/topologies/preproc.py` lines 262-281) for all the values of `params.saving.format`.

The functions `imsave` and `imsave_h5` of fluiddyn are not in the repository.  What is assumed of them is in `Writer`
and `place`: `imsave(path, v, …)` writes one file at `path` or raises and writes nothing; `imsave_h5(path, v, …)` (without
`splitext=False`) replaces the extension of the path by `.h5`, writes one file there or raises and writes nothing.
-/

namespace Verif.PreprocFormat
open Verif Verif.Names Verif.PreprocSave

abbrev Name := List Char

/-- How a file is encoded: in the encoding given by the extension of its name, in HDF5, in a format given by its name. -/
inductive Enc
  | byName
  | h5
  | named (f : Name)
  deriving DecidableEq

/-- The content of a file. -/
structure File (V : Type) where
  image : V
  enc : Enc
  deriving DecidableEq

/-- The external functions: the exception (if any) raised when an image is saved with a name and an encoding. -/
structure Writer (V : Type) where
  fails : Name → V → Enc → Option PyErr

/-- data_objects/preproc.py 75-76, 158, 160: the two values of the format which are tested. -/
def fmtImg : Name := ['i', 'm', 'g']
def fmtH5 : Name := ['h', '5']

/-- 158-168: the encoding that is used for a format. -/
def encOf (fmt : Name) : Enc :=
  if fmt = fmtImg then .byName
  else if fmt = fmtH5 then .h5
  else .named fmt

/-- 157-168: the name of the file that is written for the image named `k`. -/
def place (fmt k : Name) : Name :=
  if fmt = fmtImg then k
  else if fmt = fmtH5 then stem k ++ ['.', 'h', '5']
  else k

/-- 154-171 `PreprocResults.save`: the directory after the call and the value which is returned; `last` is the variable
`path_file` of the loop (not set if there is no image).  The path of the directory is not represented. -/
def saveLoop {V : Type} (W : Writer V) (fmt : Name) (last : Option Name) :
    Dict Name V → Dir Name (File V) → Dir Name (File V) × Except PyErr Name
  | [], fs => (fs, match last with
      | some k => .ok k
      | none => .error .unboundLocalError)
  | (k, v) :: d, fs => match W.fails (place fmt k) v (encOf fmt) with
    | some e => (fs, .error e)
    | none => saveLoop W fmt (some k) d (Dir.write fs (place fmt k, ⟨v, encOf fmt⟩))

def save {V : Type} (W : Writer V) (fmt : Name) (d : Dict Name V) (fs : Dir Name (File V)) :
    Dir Name (File V) × Except PyErr Name :=
  saveLoop W fmt none d fs

/-- topologies/preproc.py 270-277: the name that tells if a subset has been computed. -/
def checked (nbSeries : Nat) (fmt : Name) (s : Subset Name) : Except PyErr Name :=
  namePreproc s.ni s.nj s.names s.ind nbSeries (if fmt = fmtImg then none else some fmt)

/-- 267-281 `compute_indices_to_be_computed` -/
def todo {V : Type} (nbSeries : Nat) (fmt : Name) (fs : Dir Name V) :
    List (Subset Name) → Except PyErr (List (Subset Name))
  | [] => .ok []
  | s :: ss => match checked nbSeries fmt s with
    | .error e => .error e
    | .ok n => match todo nbSeries fmt fs ss with
      | .error e => .error e
      | .ok l => .ok (if (fs n).isNone then s :: l else l)

/-- 255-265: the results of subsets are saved in the order of the list; a save that raises is logged by the executor and the
others go on.  Returns the directory and the list `self.results`. -/
def saveSubsets {V : Type} (W : Writer V) (fmt : Name) (tools : List V → List V) (image : Name → V) :
    List (Subset Name) → Dir Name (File V) → Dir Name (File V) × List Name
  | [], fs => (fs, [])
  | s :: ss, fs =>
    let r := save W fmt (topologyResult tools image s) fs
    let q := saveSubsets W fmt tools image ss r.1
    (q.1, match r.2 with
      | .ok p => p :: q.2
      | .error _ => q.2)

/-- One computation in mode "complete": the subsets to be computed, then their results saved. -/
def complete {V : Type} (W : Writer V) (fmt : Name) (tools : List V → List V) (image : Name → V) (nbSeries : Nat)
    (ss : List (Subset Name)) (fs : Dir Name (File V)) : Except PyErr (Dir Name (File V) × List Name) :=
  match todo nbSeries fmt fs ss with
  | .error e => .error e
  | .ok l => .ok (saveSubsets W fmt tools image l fs)

end Verif.PreprocFormat
