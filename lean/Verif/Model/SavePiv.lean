import Verif.Model.Names
import Verif.Model.Uvmat
import Verif.Model.ResultsFiles

/-!
# Model of the places where the PIV results are saved

`/repo/src/fluidimage/data_objects/piv.py`: `HeavyPIVResults._get_name`, `save`, `_load` (352-380, 457-460), `MultipassPIVResults._get_name`,
`save`, `_load`, `make_light_result` (579-639, 716-742), `LightPIVResults._get_name`, `save`, `_load` (819-853, 872-883),
`ArrayCouple._load` (185-204: only the names, the paths and the shape are read).

What is written in a file is a value of an arbitrary type `D` (`Model/PivResults.lean` for the format of fluidimage,
`Model/UvmatFile.lean` for the one of uvmat).  The disk: the directories and the content of the files; a path is the text which is given to
`open` (the current directory does not change, and the current directory is the directory of the paths without "/"); the disk does not fail
while a file is written (for this case, see C63).  The name of a serie (`get_name_piv`, see `Model/Names.lean`) is given.
-/

namespace Verif.SavePiv
open Verif Verif.ResultsFiles Verif.Uvmat Verif.Names

/-- A serie of two images: `get_name_piv(serie)`, `base_name`, `extension_file`, and the texts of the first and last indices used for the name
of a light result (825-831). -/
structure Serie where
  pivName : Except PyErr Txt
  baseName : Txt
  ext : Option Txt
  lightInds : Except PyErr (Txt × Txt)

/-- The couple of images of a result.  `attrs = none`: the couple has been read in a file, and the attributes `name` and `serie` do not exist;
otherwise the name and the serie (`None` for a couple of arrays). -/
structure Couple where
  names : List Txt
  attrs : Option (Txt × Option Serie)

/-- The result of one pass: its couple and its data. -/
structure Heavy (D : Type) where
  couple : Couple
  data : D

/-- `fileName`: the attribute `file_name`, which exists for a result read in a file. -/
structure Multi (D : Type) where
  passes : List (Heavy D)
  fileName : Option Txt

structure Light (D : Type) where
  couple : Couple
  data : D
  fileName : Option Txt

/-- What is in a file: one pass, several passes, a light result; the names of the images. -/
inductive Doc (D : Type) where
  | heavy (names : List Txt) (d : D)
  | multi (names : List Txt) (ds : List D)
  | light (names : List Txt) (d : D)
  /-- A file which has been opened and in which the writing has failed, or another file. -/
  | other

structure Disk (D : Type) where
  dirs : List Txt
  files : Txt → Option (Doc D)

/-- `os.path.splitext(path)[1]`: the last component from its last dot, if there is something else than dots before. -/
def extension (path : Txt) : Txt :=
  let r := (path.reverse).takeWhile (· ≠ '/')
  let after := r.takeWhile (· ≠ '.')
  match r.dropWhile (· ≠ '.') with
  | [] => []
  | _ :: before => if before.all (· = '.') then [] else '.' :: after.reverse

/-- The directory in which a path is: the text before the last "/", or nothing (the current directory). -/
def parent (path : Txt) : Txt := (((path.reverse).dropWhile (· ≠ '/')).drop 1).reverse

/-- `os.path.basename` -/
def baseName (path : Txt) : Txt := ((path.reverse).takeWhile (· ≠ '/')).reverse

/-- `h5py.File(path, "w")`, the writing, and the end of the file. -/
def writeFile {D : Type} (s : Disk D) (path : Txt) (d : Doc D) : Except PyErr (Disk D) :=
  if path ∈ s.dirs then .error .osError
  else if parent path ∈ s.dirs then .ok { s with files := fun p => if p = path then some d else s.files p }
  else .error .fileNotFoundError

/-- 352-362 `HeavyPIVResults._get_name(kind)`: `none` when the function gives `None`. -/
def Heavy.name {D : Type} (r : Heavy D) (kind : Option Txt) : Except PyErr (Option Txt) :=
  match r.couple.attrs with
  | none => .error .attributeError
  | some (name, serie) => match kind with
    | none => match serie with
      | none => .ok (some (name ++ ".h5".toList))
      | some s => match s.pivName with
        | .error e => .error e
        | .ok n => .ok (some n)
    | some k =>
      if k = "bos".toList then match serie with
        | none => .error .attributeError
        | some s => .ok (some (nameBos name s.baseName s.ext))
      else .ok none

/-- `os.path.join(path, name)` -/
def joinName (path : Txt) : Option Txt → Except PyErr Txt
  | none => .error .typeError
  | some n => .ok (pathJoin path n)

/-- 367-370 (and 839-842): the path of the file. -/
def placeIn (path : Option Txt) (name : Option Txt) : Except PyErr Txt :=
  match path with
  | some p => joinName p name
  | none => match name with
    | none => .error .typeError
    | some n => .ok n

/-- 364-380 `HeavyPIVResults.save(path, kind=kind)`, in the format of fluidimage: the disk and the path which is returned. -/
def Heavy.save {D : Type} (s : Disk D) (r : Heavy D) (path kind : Option Txt) : Except PyErr (Disk D × Txt) :=
  match r.name kind with
  | .error e => .error e
  | .ok name => match placeIn path name with
    | .error e => .error e
    | .ok file => match writeFile s file (.heavy r.couple.names r.data) with
      | .error e => .error e
      | .ok s => .ok (s, file)

/-- 579-584 `MultipassPIVResults._get_name(kind)` -/
def Multi.name {D : Type} (r : Multi D) (kind : Option Txt) : Except PyErr (Option Txt) :=
  match r.fileName with
  | some n => .ok (some n)
  | none => match r.passes with
    | [] => .error .indexError
    | p :: _ => p.name kind

/-- 589-596: the path of the file. -/
def Multi.place (path : Option Txt) (name : Option Txt) : Except PyErr Txt :=
  match path with
  | some p => if extension p = ".h5".toList ∨ extension p = ".nc".toList then .ok p else joinName p name
  | none => match name with
    | none => .error .typeError
    | some n => .ok n

/-- The names of the images which are written with the passes: those of the first one (`_save_in_hdf5_object`, 390-391). -/
def Multi.names {D : Type} (r : Multi D) : List Txt :=
  match r.passes with
  | [] => []
  | p :: _ => p.couple.names

/-- 586-617 `MultipassPIVResults.save(path, kind=kind)`. -/
def Multi.save {D : Type} (s : Disk D) (r : Multi D) (path kind : Option Txt) : Except PyErr (Disk D × Txt) :=
  match r.name kind with
  | .error e => .error e
  | .ok name => match Multi.place path name with
    | .error e => .error e
    | .ok file => match writeFile s file (.multi r.names (r.passes.map Heavy.data)) with
      | .error e => .error e
      | .ok s => .ok (s, file)

/-- 819-834 `LightPIVResults._get_name` -/
def Light.name {D : Type} (r : Light D) : Except PyErr Txt :=
  match r.fileName with
  | some n => .ok (dropLastN 3 n ++ "_light.h5".toList)
  | none => match r.couple.attrs with
    | none => .error .attributeError
    | some (_, none) => .error .attributeError
    | some (_, some s) => match s.lightInds with
      | .error e => .error e
      | .ok (a, b) => .ok ("piv_".toList ++ s.baseName ++ a ++ ['-'] ++ b ++ "_light.h5".toList)

/-- 836-853 `LightPIVResults.save(path)`: the disk (the result itself is returned, not the path). -/
def Light.save {D : Type} (s : Disk D) (r : Light D) (path : Option Txt) : Except PyErr (Disk D) :=
  match r.name with
  | .error e => .error e
  | .ok name => match placeIn path (some name) with
    | .error e => .error e
    | .ok file => writeFile s file (.light r.couple.names r.data)

/-- 619-639 `MultipassPIVResults(path)` -/
def loadMulti {D : Type} (s : Disk D) (path : Txt) : Except PyErr (Multi D) :=
  match s.files path with
  | none => .error .fileNotFoundError
  | some (.multi names ds) => .ok ⟨ds.map fun d => ⟨⟨names, none⟩, d⟩, some (baseName path)⟩
  | some _ => .error .keyError

/-- 457-460 `HeavyPIVResults(str_path=path)`: the group "piv0". -/
def loadHeavy {D : Type} (s : Disk D) (path : Txt) : Except PyErr (Heavy D) :=
  match s.files path with
  | none => .error .fileNotFoundError
  | some (.heavy names d) => .ok ⟨⟨names, none⟩, d⟩
  | some (.multi names (d :: _)) => .ok ⟨⟨names, none⟩, d⟩
  | some _ => .error .keyError

/-- 872-883 `LightPIVResults(str_path=path)`; a file of passes can be read as well: the last group. -/
def loadLight {D : Type} (light : D → D) (s : Disk D) (path : Txt) : Except PyErr (Light D) :=
  match s.files path with
  | none => .error .fileNotFoundError
  | some (.light names d) => .ok ⟨⟨names, none⟩, d, none⟩
  | some (.heavy names d) => .ok ⟨⟨names, none⟩, light d, none⟩
  | some (.multi names ds) => match ds.getLast? with
    | none => .error .valueError
    | some d => .ok ⟨⟨names, none⟩, light d, none⟩
  | some .other => .error .keyError

/-- 716-742 `make_light_result(ind_pass)`; `light` keeps the arrays of a light result. -/
def Multi.light {D : Type} (light : D → D) (r : Multi D) (ind : Nat) : Except PyErr (Light D) :=
  match r.passes[ind]? with
  | none => .error .indexError
  | some p => .ok ⟨p.couple, light p.data, r.fileName⟩

end Verif.SavePiv
