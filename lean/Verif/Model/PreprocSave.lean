import Verif.Model.Names
import Verif.Py.Dict

/-!
# Images saved by the preprocessing

Model of `WorkPreproc.calcul` and `_make_dict_to_save` (`src/fluidimage/works/preproc/__init__.py` lines 100-138), of
`ArraySerie.__init__` and `PreprocResults.save` (`src/fluidimage/data_objects/preproc.py` lines 85-115, 154-171) and of
`TopologyPreproc.make_subsets`, `save_preproc_object`, `compute_indices_to_be_computed`
(`src/fluidimage/topologies/preproc.py` lines 262-318), for the format "img".

Names and images are of arbitrary types `N` and `V`; `tools : List V → List V` is the function applied to the images
of a subset (`self.tools.apply`); the result directory is a function from the names to the content (`none`: no file);
the conversion to integers by `imsave` is part of `tools`.
-/

namespace Verif.PreprocSave
open Verif Verif.Names

/-- __init__.py 129-136: the slice of the images that are saved (`none`: absent bound). -/
def saveSlice (ni nj : Int) (indSerie nbSeries : Nat) : Option Int × Option Int :=
  let (middleStart, middleEnd) := indMiddle ni nj
  if indSerie = 0 ∧ nbSeries = 1 then (none, none)
  else if indSerie = 0 then (some 0, some middleEnd)
  else if (indSerie : Int) = nbSeries - 1 then (some middleStart, none)
  else (some middleStart, some middleEnd)

/-- One bound of a Python slice of a list of length `L`. -/
def clampBound (L : Nat) (b : Int) : Nat := if b < 0 then (b + L).toNat else min b.toNat L

/-- Python `l[a:b]` -/
def pySlice {β : Type} (l : List β) (s : Option Int × Option Int) : List β :=
  let a := (s.1.map (clampBound l.length)).getD 0
  let b := (s.2.map (clampBound l.length)).getD l.length
  (l.take b).drop a

/-- 138: `dict(zip(name_files[s], images[s]))` -/
def makeDict {N V : Type} [DecidableEq N] (ni nj : Int) (indSerie nbSeries : Nat) (names : List N) (images : List V) :
    Dict N V :=
  let s := saveSlice ni nj indSerie nbSeries
  (List.zip (pySlice names s) (pySlice images s)).foldl (fun d nv => Dict.set d nv.1 nv.2) []

/-- 100-121 `calcul`: the images of the subset, the tools, the images to be saved. -/
def calcul {N V : Type} [DecidableEq N] (tools : List V → List V) (ni nj : Int) (indSerie nbSeries : Nat)
    (names : List N) (arrays : List V) : Dict N V :=
  makeDict ni nj indSerie nbSeries names (tools arrays)

/-- A subset: its index in the series, the slices, its names. -/
structure Subset (N : Type) where
  ind : Nat
  ni : Int
  nj : Int
  names : List N

/-- preproc.py (topology) 305-310 and 249: the subset is made without its index and without the number of series, so
`ind_serie = 0` and `nb_series = 1` (defaults of `ArraySerie.__init__`, 85-94).  `image` gives the loaded images. -/
def topologyResult {N V : Type} [DecidableEq N] (tools : List V → List V) (image : N → V) (s : Subset N) : Dict N V :=
  calcul tools s.ni s.nj 0 1 s.names (s.names.map image)

/-- The result directory. -/
abbrev Dir (N V : Type) := N → Option V

/-- One file is written. -/
def Dir.write {N V : Type} [DecidableEq N] (fs : Dir N V) (nv : N × V) : Dir N V :=
  fun n => if n = nv.1 then some nv.2 else fs n

/-- `PreprocResults.save` 156-168: the files of a result are written one after the other. -/
def writeAll {N V : Type} [DecidableEq N] (fs : Dir N V) (l : List (N × V)) : Dir N V := l.foldl Dir.write fs

/-- `PreprocResults.save` 154-171: line 171 uses a variable of the loop, not set if there is no image. -/
def save {N V : Type} [DecidableEq N] (fs : Dir N V) (d : Dict N V) : Except PyErr (Dir N V) :=
  if d.isEmpty then .error .unboundLocalError else .ok (writeAll fs d)

/-- The files written for subsets processed in a given order. -/
def writesOf {N V : Type} [DecidableEq N] (tools : List V → List V) (image : N → V) (ss : List (Subset N)) :
    List (N × V) :=
  ss.flatMap (topologyResult tools image)

/-- preproc.py (topology) 270-278: the name that tells if a subset has been computed (format "img": the name of the
image itself, preproc.py 75-76). -/
def checkedName {N : Type} (nbSeries : Nat) (s : Subset N) : Except PyErr N :=
  item s.names (nameIndex s.ni s.nj s.ind nbSeries)


/-- 267-281 `compute_indices_to_be_computed`: the subsets computed in mode "complete"; an invalid index is raised. -/
def toCompute {N V : Type} (nbSeries : Nat) (fs : Dir N V) (ss : List (Subset N)) : Except PyErr (List (Subset N)) :=
  match ss with
  | [] => .ok []
  | s :: ss => match checkedName nbSeries s with
    | .error e => .error e
    | .ok n => match toCompute nbSeries fs ss with
      | .error e => .error e
      | .ok l => .ok (if (fs n).isNone then s :: l else l)

end Verif.PreprocSave
