import Verif.Py.Basic
import Verif.Py.Text

/-!
# Model of `fluidimage.get_path_image_samples`

`/repo/src/fluidimage/__init__.py` 44-101 (`_get_user_data_dir`, `get_path_image_samples`).

The files are the set of the absolute paths which exist (lists of names); there are no links, and ".." is interpreted only in the path of
the package (62).  `hg clone` and `git clone` are programs which refuse a directory which is not empty and otherwise write the content
of the repository in it, or fail and leave nothing, or are killed (with the process, or by a cut of the network which stops the program
without cleaning) when they have written some files.  `PermissionError` is `osError`.
-/

namespace Verif.ImageSamples
open Verif Verif.Text

abbrev Txt := List Char

/-- A `pathlib` path: absolute or not, and its names. -/
structure Path where
  abs : Bool
  parts : List Txt
deriving DecidableEq

/-- `Path(text)` -/
def parse (s : Txt) : Path := ⟨s.head? = some '/', (splitChar '/' s).filter fun c => c ≠ [] && c ≠ ['.']⟩

/-- `path / a / b ...` -/
def Path.join (p : Path) (l : List Txt) : Path := ⟨p.abs, p.parts ++ l⟩

/-- `sys.platform`; on Windows, the directory read in the registry. -/
inductive Platform where
  | linux | darwin
  | win32 (localAppData : List Txt)
deriving DecidableEq

/-- The process and its machine. -/
structure World where
  /-- the directory of the file `__init__.py` -/
  pkg : List Txt
  home : List Txt
  cwd : List Txt
  env : Txt → Option Txt
  platform : Platform
  /-- `which("hg")`, `which("git")` -/
  hg : Bool
  git : Bool
  /-- the missing directories can be created -/
  canWrite : Bool

/-- The paths which exist. -/
abbrev FS := List (List Txt)

/-- The absolute path which is meant by a path. -/
def full (w : World) (p : Path) : List Txt := if p.abs then p.parts else w.cwd ++ p.parts

/-- `path.expanduser()` (without "~user") -/
def expanduser (w : World) (p : Path) : Path :=
  if p.abs then p else match p.parts with
    | [] => p
    | c :: l => if c = ['~'] then ⟨true, w.home ++ l⟩ else p

/-- `"image_samples"` -/
def nameSamples : Txt := "image_samples".toList

/-- __init__.py 44-58 `_get_user_data_dir(appname)` -/
def userDataDir (w : World) (appname : Txt) : Path :=
  let ans : Path := match w.platform with
    | .win32 d => ⟨true, d⟩                                                                     -- 45-53
    | .darwin => expanduser w (parse "~/Library/Application Support/".toList)                   -- 54-55
    | .linux => expanduser w (parse ((w.env "XDG_DATA_HOME".toList).getD "~/.local/share".toList)) -- 57
  ans.join [appname]

/-- The end of a program `clone`. -/
inductive Clone where
  | complete
  | failed
  | killed (written : List (List Txt))

/-- There is something in the directory. -/
def nonEmpty (fs : FS) (d : List Txt) : Bool := fs.any fun q => d.isPrefixOf q && q != d

/-- `hg clone url dir` or `git clone url dir`, in an existing directory; `repo`: the content of the repository (paths in it). -/
def clone (repo : List (List Txt)) (o : Clone) (d : List Txt) (fs : FS) : FS :=
  if nonEmpty fs d then fs else match o with
    | .complete => fs ++ repo.map (d ++ ·)
    | .failed => fs
    | .killed ws => fs ++ ws.map (d ++ ·)

/-- `path.mkdir(parents=True, exist_ok=True)` -/
def mkdirs (w : World) (d : List Txt) (fs : FS) : Except PyErr FS :=
  if d ∈ fs then .ok fs else if w.canWrite then .ok (fs ++ (List.range (d.length + 1)).map d.take) else .error .osError

/-- __init__.py 73-78: the loop over the names of the variables of the continuous integration. -/
def ciSamples (w : World) (fs : FS) : List Txt → Option Path
  | [] => none
  | name :: l => match w.env name with
    | none => ciSamples w fs l
    | some dir =>
      let p := (parse dir).join [nameSamples]
      if full w p ∈ fs then some p else ciSamples w fs l

/-- __init__.py 80-84 -/
def dataSamples (w : World) : Path := (userDataDir w "fluidimage".toList).join ["repository".toList, nameSamples]

/-- `path.parent` -/
def Path.parent (p : Path) : Path := ⟨p.abs, p.parts.dropLast⟩

/-- __init__.py 61-101 `get_path_image_samples()`: the files after, the result and whether a clone has been started. -/
def getPath (w : World) (repo : List (List Txt)) (o : Clone) (fs : FS) : Except PyErr (FS × Path × Bool) :=
  let p1 : Path := ⟨true, w.pkg.dropLast.dropLast ++ [nameSamples]⟩
  if full w p1 ∈ fs then .ok (fs, p1, false)                                                     -- 64-66
  else
    let p2 : Path := ⟨true, w.home ++ ["dev".toList, "fluidimage".toList, nameSamples]⟩
    if full w p2 ∈ fs then .ok (fs, p2, false)                                                   -- 68-70
    else match ciSamples w fs ["CI_PROJECT_DIR".toList, "GITHUB_WORKSPACE".toList] with
      | some p => .ok (fs, p, false)                                                             -- 73-78
      | none =>
        let p := dataSamples w
        let d := full w p.parent
        match mkdirs w d fs with                                                                 -- 84-85
        | .error e => .error e
        | .ok fs =>
          if full w p ∈ fs then .ok (fs, p, false)
          else if w.hg then .ok (clone repo o d fs, p, true)                                      -- 88-91, 97-100
          else if w.git then .ok (clone repo o d fs, p, true)                                     -- 92-100
          else .ok (fs, p, false)

/-- The files after calls in several processes, one after the other (a call which raises an exception writes nothing). -/
def after (repo : List (List Txt)) : List (World × Clone) → FS → FS
  | [], fs => fs
  | (w, o) :: l, fs => match getPath w repo o fs with
    | .error _ => after repo l fs
    | .ok (fs', _) => after repo l fs'

end Verif.ImageSamples
