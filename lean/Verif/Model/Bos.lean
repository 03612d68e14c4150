import Verif.Model.Chain

/-!
# Model of the topology for BOS (background oriented schlieren)

`/repo/src/fluidimage/topologies/bos.py`, `/repo/src/fluidimage/topologies/base.py:597-658`,
`/repo/src/fluidimage/works/bos.py:58-76`.
-/

namespace Verif.Bos
open Verif Verif.Exec

/-- An absolute path: the names of the directories, and the name of the file. -/
structure FilePath where
  dirs : List (List Char)
  name : List Char
deriving DecidableEq, Repr

/-- What is used of a serie of images (class `SerieOfArraysFromFiles` of fluiddyn, not in the repository): its
directory, its base name, and `compute_indices_from_name`, which raises `ValueError` for other names. -/
structure Serie (ι : Type) where
  dir : List (List Char)
  baseName : List Char
  indicesOf : List Char → Except PyErr ι
  nameOf : ι → List Char

/-- works/bos.py:58-76 `_init_path_reference`, for an integer: the name of this index (possibly negative) in the sorted
list of the names; `IndexError` out of bounds.  `names` is already sorted. -/
def pathReferenceOfInt (dir : List (List Char)) (names : List (List Char)) (i : Int) : Except PyErr FilePath :=
  let j := if i < 0 then i + names.length else i
  if j < 0 then .error .indexError
  else
    match names[j.toNat]? with
    | none => .error .indexError
    | some name => .ok ⟨dir, name⟩

/-- bos.py:170-189 `_fix_indices_images`: the indices of the reference are removed (the first occurrence, as
`list.remove`).  `is_relative_to` compares the components of the paths; `compute_indices_from_name` raising another
exception than `ValueError` is not modelled. -/
def fixIndices {ι : Type} [DecidableEq ι] (serie : Serie ι) (ref : FilePath) (indices : List ι) : List ι :=
  if !(serie.dir.isPrefixOf (ref.dirs ++ [ref.name])) then indices
  else if !(serie.baseName.isPrefixOf ref.name) then indices
  else
    match serie.indicesOf ref.name with
    | .error _ => indices
    | .ok i => indices.erase i

/-- base.py:600-612 `compute_indices_to_be_computed` and base.py:626-636: the indices of the images to compute;
`done` gives, in mode "complete", the images whose result exists. -/
def indicesToCompute {ι : Type} [DecidableEq ι] (serie : Serie ι) (ref : FilePath) (complete : Bool) (done : ι → Bool)
    (indices : List ι) : List ι :=
  if complete then fixIndices serie ref (indices.filter (fun i => !done i))
  else fixIndices serie ref indices

/-- base.py:647-652: the queue of the paths (as names). -/
def fillQueue {ι : Type} (serie : Serie ι) (indices : List ι) : List (List Char) := indices.map serie.nameOf

/-- bos.py:107-155 without image-to-image function: a chain "read array", "compute bos", "save bos". -/
def works {κ α ε : Type} (read bos save : κ → α → Except ε α) : List (ChainWork κ α ε) :=
  [⟨true, read⟩, ⟨false, bos⟩, ⟨true, save⟩]

/-- bos.py:107-155 with an image-to-image function.  Queues "paths" (0), "arrays" (1), "bos" (2), "arrays1" (3): the
work "image2image" puts its results in "arrays1", and the work "compute bos" reads "arrays" (line 146). -/
def topologyPreproc {κ α ε : Type} (read im2im bos save : κ → α → Except ε α) : Topology κ α ε Unit where
  nq := 4
  works :=
    [.item 0 (some 1) true read, .item 1 (some 3) false im2im, .item 1 (some 2) false bos, .item 2 none true save]
  auxEmpty := fun _ => true

end Verif.Bos
