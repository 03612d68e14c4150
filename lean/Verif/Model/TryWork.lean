import Verif.Model.Groups
import Verif.Model.Mask
import Verif.Model.ResultsFiles

/-!
# Model of the works used outside a topology: trial on one couple of images

`/repo/src/fluidimage/works/__init__.py` 147-180 (`BaseWorkFromSerie`: `get_serie`, `process_1_serie`, `calcul_from_arrays`),
`/repo/src/fluidimage/data_objects/piv.py` 76-166 (`ArrayCouple`),
`/repo/src/fluidimage/works/piv/singlepass.py` 143-157 and `/repo/src/fluidimage/works/optical_flow.py` 194-205 (what `calcul`
accepts), `/repo/src/fluidimage/image2image.py` 73-110 (`apply_im2im_filter`), and the works of
`/repo/src/fluidimage/topologies/piv.py` 87-235 with these functions.

Simplifications.  What is computed from the two masked images is an arbitrary function `velo` (`Model/WholePiv.lean` for
PIV, `Model/OpticalFlow.lean` for the optical flow); it depends only on the images: for PIV, see C75.  The class
`SeriesOfArrays` of fluiddyn is the function which gives the names and the paths of the couples.  The files do not change.
An "image to image" function is given by its effect on a documented argument (text, image), see `Model/Im2Im.lean`.
-/

namespace Verif.TryWork
open Verif Verif.Exec Verif.PivGrid Verif.Mask Verif.ResultsFiles

/-- The content of the disk, and the function of the work. -/
structure Ext (F : Type) where
  /-- `os.path.exists` (fluiddyn's `check_all_files_exist`) -/
  exist : Txt → Bool
  imread : Txt → Except PyErr (Img Int)
  /-- `os.path.abspath` -/
  abspath : Txt → Txt
  velo : Img Int → Img Int → Except PyErr F

/-- A `SerieOfArraysFromFiles`: names and paths of its files. -/
structure Serie where
  names : List Txt
  paths : List Txt
deriving DecidableEq

/-- A `SeriesOfArrays`: `ind_start` and `get_serie_from_index`. -/
structure Series where
  indStart : Int
  serie : Int → Except PyErr Serie

/-- The attributes of an `ArrayCouple`. -/
structure Couple where
  names : List Txt
  paths : Option (List Txt)
  shape : Nat × Nat
  arrays : List (Img Int)
  paramsMask : Option MaskParams
  serie : Option Serie

/-- piv.py 159-160 `_mask_arrays` -/
def maskArrays (pm : Option MaskParams) : List (Img Int) → Except PyErr (List (Img Int))
  | [] => .ok []
  | a :: as => match maskArray pm a with
    | .error e => .error e
    | .ok b => match maskArrays pm as with
      | .error e => .error e
      | .ok bs => .ok (b :: bs)

/-- piv.py 130-135 `read_images`: the images 0 and 1 of `self.paths` (the attribute does not exist if no path is known). -/
def readImages {F : Type} (E : Ext F) (paths : Option (List Txt)) : Except PyErr (List (Img Int)) :=
  match paths with
  | none => .error .attributeError
  | some [] => .error .indexError
  | some (p :: ps) => match E.imread p with
    | .error e => .error e
    | .ok a => match ps with
      | [] => .error .indexError
      | q :: _ => match E.imread q with
        | .error e => .error e
        | .ok b => .ok [a, b]

/-- piv.py 117-118: the arrays given, or the images of the files. -/
def givenArrays {F : Type} (E : Ext F) (arrays : Option (List (Img Int))) (paths : Option (List Txt)) :
    Except PyErr (List (Img Int)) :=
  match arrays with
  | some as => .ok as
  | none => readImages E paths

/-- piv.py 101-112: the names and the paths, taken from the serie if it is given without paths. -/
def namesPaths {F : Type} (E : Ext F) (names : Option (List Txt)) (paths : Option (List Txt)) (serie : Option Serie) :
    Except PyErr (Option (List Txt) × Option (List Txt)) :=
  match serie, paths with
  | some s, none =>
    if s.names.length ≠ 2 then .error .valueError
    else if !(s.paths.all E.exist) then .error .valueError
    else .ok (some s.names, some s.paths)
  | _, _ => .ok (names, paths)

/-- piv.py 78-125 `ArrayCouple(names, arrays, paths, serie, params_mask)` -/
def newCouple {F : Type} (E : Ext F) (names : Option (List Txt)) (arrays : Option (List (Img Int)))
    (paths : Option (List Txt)) (serie : Option Serie) (pm : Option MaskParams) : Except PyErr Couple :=
  match namesPaths E names paths serie with
  | .error e => .error e
  | .ok (names, paths) =>
    let paths := paths.map fun ps => ps.map E.abspath
    match givenArrays E arrays paths with
    | .error e => .error e
    | .ok as => match names with
      | none => .error .typeError
      | some names => match as with
        | [] => .error .indexError
        | a :: _ => match maskArrays pm as with
          | .error e => .error e
          | .ok masked => .ok ⟨names, paths, (a.ny, a.nx), masked, pm, serie⟩

/-- piv.py 137-148 `apply_mask` -/
def Couple.applyMask (c : Couple) (pm : Option MaskParams) : Except PyErr Couple :=
  match c.paramsMask, pm with
  | some _, none => .error .notImplementedError
  | some p, some q => if q = p then .ok c else .error .notImplementedError
  | none, pm => match maskArrays pm c.arrays with
    | .error e => .error e
    | .ok as => .ok { c with arrays := as, paramsMask := pm }

/-- What can be given to `calcul`: a serie, a dictionary (with the keys "names" and "arrays", and "paths" or not), a couple
or something else. -/
inductive Arg where
  | serie (s : Serie)
  | dict (names : List Txt) (arrays : List (Img Int)) (paths : Option (List Txt))
  | couple (c : Couple)
  | other

/-- A result: the couple and what has been computed. -/
structure Result (F : Type) where
  couple : Couple
  fields : F

/-- singlepass.py 145-153, optical_flow.py 195-201 -/
def toCouple {F : Type} (E : Ext F) : Arg → Except PyErr Couple
  | .serie s => newCouple E none none none (some s) none
  | .dict names arrays paths => newCouple E (some names) (some arrays) paths none none
  | .couple c => .ok c
  | .other => .error .valueError

/-- singlepass.py 143-187, optical_flow.py 194-229; `mask` is `params.mask`. -/
def calcul {F : Type} (E : Ext F) (mask : MaskParams) (arg : Arg) : Except PyErr (Result F) :=
  match toCouple E arg with
  | .error e => .error e
  | .ok c => match c.applyMask (some mask) with
    | .error e => .error e
    | .ok c => match c.arrays with
      | [im0, im1] => match E.velo im0 im1 with
        | .error e => .error e
        | .ok f => .ok ⟨c, f⟩
      | _ => .error .valueError

/-! ## The methods of a work -/

/-- A work: its parameters (`P`: `params.series`) and its attribute `_series`, if it exists. -/
structure Obj (P : Type) where
  series : P
  mask : MaskParams
  cache : Option Series

/-- works/__init__.py 147-162 `get_serie`; `make` is the constructor of `SeriesOfArrays`. -/
def getSerie {P : Type} (make : P → Except PyErr Series) (o : Obj P) (index : Option Int) : Obj P × Except PyErr Serie :=
  match o.cache with
  | some S => (o, S.serie (index.getD S.indStart))
  | none => match make o.series with
    | .error e => (o, .error e)
    | .ok S => ({ o with cache := some S }, S.serie (index.getD S.indStart))

/-- works/__init__.py 164-171 `process_1_serie` -/
def processOneSerie {P F : Type} (E : Ext F) (make : P → Except PyErr Series) (o : Obj P) (index : Option Int) :
    Obj P × Except PyErr (Result F) :=
  match getSerie make o index with
  | (o, .error e) => (o, .error e)
  | (o, .ok s) => (o, calcul E o.mask (.serie s))

/-- Python `f"array{i}"`. -/
def arrayName (i : Nat) : Txt := "array".toList ++ (toString i).toList

/-- works/__init__.py 173-180 `calcul_from_arrays`: the argument `names` is replaced. -/
def calculFromArrays {P F : Type} (E : Ext F) (o : Obj P) (arrays : List (Img Int)) (_names : Option (List Txt)) :
    Except PyErr (Result F) :=
  calcul E o.mask (.dict ((List.range arrays.length).map arrayName) arrays none)

/-- fluiddyn's `serie.get_arrays()`: the images of the files. -/
def getArrays {F : Type} (E : Ext F) : List Txt → Except PyErr (List (Img Int))
  | [] => .ok []
  | p :: ps => match E.imread p with
    | .error e => .error e
    | .ok a => match getArrays E ps with
      | .error e => .error e
      | .ok as => .ok (a :: as)

/-- image2image.py 104-108: the function is called with the path. -/
def filterLoop (f : Txt → Img Int → Except PyErr (Img Int)) : List Txt → List (Img Int) → Except PyErr (List (Img Int))
  | p :: ps, a :: as => match f p a with
    | .error e => .error e
    | .ok b => match filterLoop f ps as with
      | .error e => .error e
      | .ok bs => .ok (b :: bs)
  | _, _ => .ok []

/-- image2image.py 73-110 `apply_im2im_filter` -/
def applyFilter {F : Type} (E : Ext F) (f : Option (Txt → Img Int → Except PyErr (Img Int))) (s : Serie) : Except PyErr Arg :=
  match f with
  | none => .ok (.serie s)
  | some f => match getArrays E s.paths with
    | .error e => .error e
    | .ok as => match filterLoop f s.paths as with
      | .error e => .error e
      | .ok bs => .ok (.dict (s.paths.map pathName) bs (some s.paths))

/-- The trial of the documentation (`doc/examples/piv_try_params_with_im2im_preproc.py` 20-25):
`work.calcul(apply_im2im_filter(work.get_serie(index), im2im))`. -/
def tryFiltered {P F : Type} (E : Ext F) (make : P → Except PyErr Series)
    (f : Option (Txt → Img Int → Except PyErr (Img Int))) (o : Obj P) (index : Option Int) :
    Obj P × Except PyErr (Result F) :=
  match getSerie make o index with
  | (o, .error e) => (o, .error e)
  | (o, .ok s) => match applyFilter E f s with
    | .error e => (o, .error e)
    | .ok arg => (o, calcul E o.mask arg)

/-! ## The topology -/

/-- The keys of the queues: indices of couples, and names of images. -/
inductive Key where
  | idx (i : Int)
  | name (n : Txt)
deriving DecidableEq

/-- The values in the queues. -/
inductive Val (F : Type) where
  | path (p : Txt)
  | image (a : Img Int)
  | names (l : List Key)
  | couple (c : Couple)
  | results (r : Result F)

/-- topologies/piv.py 113-119: the work "read array". -/
def readWork {F : Type} (E : Ext F) (_ : Key) : Val F → Except PyErr (Val F)
  | .path p => match E.imread p with
    | .error e => .error e
    | .ok a => .ok (.image a)
  | _ => .error .typeError

/-- topologies/piv.py 121-132: the work "image2image" (kind "eat key value"): the function is called with the name. -/
def im2imWork {F : Type} (f : Txt → Img Int → Except PyErr (Img Int)) : Key → Val F → Except PyErr (Val F)
  | .name n, .image a => match f n a with
    | .error e => .error e
    | .ok b => .ok (.image b)
  | _, _ => .error .typeError

/-- topologies/piv.py 211-225: `ArrayCouple(names=.., arrays=.., params_mask=params.mask, serie=..)`. -/
def makeCouple {F : Type} (E : Ext F) (S : Series) (mask : MaskParams) : Key → Key × Key → Val F × Val F → Except PyErr (Val F)
  | .idx i, (.name n0, .name n1), (.image a0, .image a1) => match S.serie i with
    | .error e => .error e
    | .ok s => match newCouple E (some [n0, n1]) (some [a0, a1]) none (some s) (some mask) with
      | .error e => .error e
      | .ok c => .ok (.couple c)
  | _, _, _ => .error .typeError

/-- The functions used by `make_couples`. -/
def coupleOps {F : Type} (E : Ext F) (S : Series) (mask : MaskParams) : CoupleOps Key (Val F) PyErr where
  tup := .names
  namesOf := fun v => match v with
    | .names l => l
    | _ => []
  namesOf_tup := fun _ => rfl
  make := makeCouple E S mask
  keyError := .keyError
  indexError := .indexError

/-- topologies/piv.py 145-151: the work "compute piv". -/
def computeWork {F : Type} (E : Ext F) (mask : MaskParams) (_ : Key) (v : Val F) : Except PyErr (Val F) :=
  match calcul E mask (match v with
    | .couple c => .couple c
    | _ => .other) with
  | .error e => .error e
  | .ok r => .ok (.results r)

/-- topologies/piv.py 153-158, 161-164: the work "save piv". -/
def saveWork {F : Type} (save : Result F → Except PyErr Unit) (_ : Key) : Val F → Except PyErr (Val F)
  | .results r => match save r with
    | .error e => .error e
    | .ok _ => .ok (.results r)
  | _ => .error .attributeError

/-- topologies/piv.py 98-159 -/
def topology {F : Type} (E : Ext F) (S : Series) (mask : MaskParams) (f : Option (Txt → Img Int → Except PyErr (Img Int)))
    (save : Result F → Except PyErr Unit) : Topology Key (Val F) PyErr Unit :=
  pivTopology (readWork E) (f.map im2imWork) (coupleOps E S mask) (computeWork E mask) (saveWork save)

/-- The path of the image of a key, for images in the directory `dir`. -/
def pathOf {F : Type} (dir : Txt) : Key → Val F
  | .name n => .path (dir ++ ['/'] ++ n)
  | .idx _ => .path []

/-- The couples of the computation: index, names of the two images. -/
def keys (cs : List (Int × Txt × Txt)) : List (Key × Key × Key) := cs.map fun c => (.idx c.1, .name c.2.1, .name c.2.2)

end Verif.TryWork
