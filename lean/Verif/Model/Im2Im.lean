import Verif.Model.Chain
import Verif.Model.ResultsFiles

/-!
# Model of the user-defined "image to image" functions

`/repo/src/fluidimage/works/image2image.py`, `/repo/src/fluidimage/image2image.py:73-110` (`apply_im2im_filter`),
`/repo/src/fluidimage/works/__init__.py:184-232` (`BaseWorkFromImage`), `/repo/src/fluidimage/topologies/image2image.py`,
and the way the other topologies call these functions (`topologies/base.py:173-177`, `topologies/bos.py:36-38, 117-141`).
-/

namespace Verif.Im2Im
open Verif Verif.Exec Verif.ResultsFiles

/-- The Python objects given to such a function: texts, images, and couples. -/
inductive Obj (α : Type) where
  | text (s : Txt)
  | image (a : α)
  | pair (x y : Obj α)
deriving DecidableEq, Repr

/-- A Python function of one argument. -/
abbrev Fun (α : Type) := Obj α → Except PyErr (Obj α)

/-- What the parameter `im2im` can be (after the import, if it is a string): a function defined with `def` or `lambda`
(`types.FunctionType`), a class (given by what `cls(*args)` gives: its bound method `calcul`, if it has one), or anything
else (`None`, callable objects, built-in functions, …). -/
inductive Val (α : Type) where
  | func (f : Fun α)
  | cls (new : List (Obj α) → Except PyErr (Option (Fun α)))
  | other

/-- `text.rsplit(".", 1)` followed by the unpacking in two variables: `ValueError` if there is no dot. -/
def rsplitDot (s : Txt) : Except PyErr (Txt × Txt) :=
  match s.reverse.dropWhile (fun c => decide (c ≠ '.')) with
  | [] => .error .valueError
  | _ :: rest => .ok (rest.reverse, (s.reverse.takeWhile (fun c => decide (c ≠ '.'))).reverse)

/-- The parameter: a string or an object. -/
inductive Param (α : Type) where
  | str (s : Txt)
  | val (v : Val α)

/-- works/image2image.py:52-60: in the branch where `im2im` is neither a function nor a class, `obj` and `im2im_func` are
not defined. -/
def functionOf {α : Type} (args : List (Obj α)) : Val α → Except PyErr (Fun α)
  | .func f => .ok f
  | .cls new =>
    match new args with
    | .error e => .error e
    | .ok none => .error .attributeError
    | .ok (some f) => .ok f
  | .other => .error .unboundLocalError

/-- works/image2image.py:45-60 `init_im2im_function`; `importClass package name` is `fluiddyn.util.import_class`. -/
def initFunction {α : Type} (importClass : Txt → Txt → Except PyErr (Val α)) (args : List (Obj α)) :
    Param α → Except PyErr (Fun α)
  | .str s =>
    match rsplitDot s with
    | .error e => .error e
    | .ok (package, name) =>
      match importClass package name with
      | .error e => .error e
      | .ok v => functionOf args v
  | .val v => functionOf args v

/-- The dictionary returned by `apply_im2im_filter`. -/
structure Filtered (α : Type) where
  names : List Txt
  arrays : List (Obj α)
  paths : List Txt
deriving DecidableEq, Repr

/-- image2image.py:102-108: the loop over the arrays and the paths of the serie. -/
def applyLoop {α : Type} (f : Fun α) : List (Txt × α) → Filtered α → Except PyErr (Filtered α)
  | [], acc => .ok acc
  | (path, arr) :: rest, acc =>
    match f (.pair (.text path) (.image arr)) with
    | .error e => .error e
    | .ok new =>
      applyLoop f rest ⟨acc.names ++ [pathName path], acc.arrays ++ [new], acc.paths ++ [path]⟩

/-- image2image.py:73-110 `apply_im2im_filter`; `none`: the serie itself is returned (line 87).  The serie is given by the
paths and the images of its files. -/
def applyFilter {α : Type} (importClass : Txt → Txt → Except PyErr (Val α)) (args : List (Obj α))
    (serie : List (Txt × α)) : Option (Param α) → Except PyErr (Option (Filtered α))
  | none => .ok none
  | some p =>
    match initFunction importClass args p with
    | .error e => .error e
    | .ok f =>
      match applyLoop f serie ⟨[], [], []⟩ with
      | .error e => .error e
      | .ok r => .ok (some r)

/-- works/__init__.py:215-220 `get_tuple_image_name`: the image, then its name. -/
def tupleImageName {α : Type} (serie : List (Txt × α)) (i : Nat) : Except PyErr (Obj α × Obj α) :=
  match serie[i]? with
  | none => .error .indexError
  | some (name, arr) => .ok (.image arr, .text name)

/-- works/__init__.py:222-229 `process_1_image`, with `calcul` of works/image2image.py:85-86. -/
def processOne {α : Type} (f : Fun α) (serie : List (Txt × α)) (i : Nat) : Except PyErr (Obj α) :=
  match tupleImageName serie i with
  | .error e => .error e
  | .ok (x, y) => f (.pair x y)

/-- works/image2image.py:88-97 `display`: the output for the image `i` (`calcul(tuple_image_name[::-1])`). -/
def displayOutput {α : Type} (f : Fun α) (serie : List (Txt × α)) (i : Nat) : Except PyErr (Obj α) :=
  match tupleImageName serie i with
  | .error e => .error e
  | .ok (x, y) => f (.pair y x)

/-- The work "read_array" (`util/util.py:47-60` `imread`): from a path to an image. -/
def readWork {α : Type} (imread : Txt → Except PyErr α) (_name : Txt) : Obj α → Except PyErr (Obj α)
  | .text path =>
    match imread path with
    | .error e => .error e
    | .ok a => .ok (.image a)
  | _ => .error .typeError

/-- topologies/bos.py:36-38 `_imread`: the image and its name. -/
def readWorkBos {α : Type} (imread : Txt → Except PyErr α) (_name : Txt) : Obj α → Except PyErr (Obj α)
  | .text path =>
    match imread path with
    | .error e => .error e
    | .ok a => .ok (.pair (.image a) (.text (pathName path)))
  | _ => .error .typeError

/-- The work "im2im" (kind "eat key value", `topologies/base.py:173-177`). -/
def im2imWork {α : Type} (f : Fun α) (name : Txt) (v : Obj α) : Except PyErr (Obj α) := f (.pair (.text name) v)

/-- topologies/image2image.py:100-121: the three works; `imsave` writes a file in the result directory. -/
def works {α : Type} (imread : Txt → Except PyErr α) (f : Fun α) (imsave : Txt → Obj α → Except PyErr Unit) :
    List (ChainWork Txt (Obj α) PyErr) :=
  [⟨true, readWork imread⟩, ⟨false, im2imWork f⟩,
   ⟨true, fun name v =>
      match imsave (pathName name) v with
      | .error e => .error e
      | .ok _ => .ok v⟩]

/-- topologies/base.py:647-652: the queue of the paths; `dir` is the directory of the images. -/
def queuePaths {α : Type} (dir : Txt) (names : List Txt) : Dict Txt (Except PyErr (Obj α)) :=
  names.map (fun name => (name, .ok (.text (dir ++ ['/'] ++ name))))

end Verif.Im2Im
