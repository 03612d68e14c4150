import Verif.Model.Bos

/-!
# Model of the choice of the reference of a BOS computation (`params.reference`)

`/repo/src/fluidimage/works/bos.py:51-76` (`init_from_input`, `_init_path_reference`), `/repo/src/fluidimage/topologies/bos.py:22-33`
(`SplitterBos`) and 170-189 (`_fix_indices_images`).

A path of `pathlib` is a list of parts with a mark for the absolute paths; links and ".." are not followed.  The class of the series is
in fluiddyn, not in the repository: its attribute `path_dir` is a parameter.  Not modelled: "~user", booleans given as integers, and the
reading of the image.
-/

namespace Verif.BosReference
open Verif Verif.Bos

/-- A path of `pathlib`. -/
structure PPath where
  absolute : Bool
  parts : List (List Char)
deriving DecidableEq

/-- `a / b` -/
def PPath.join (a b : PPath) : PPath := if b.absolute then b else ⟨a.absolute, a.parts ++ b.parts⟩

/-- `path.is_relative_to(other)`: comparison of the parts, without the current directory. -/
def PPath.isRelativeTo (p d : PPath) : Bool := decide (p.absolute = d.absolute) && d.parts.isPrefixOf p.parts

/-- `path.name` -/
def PPath.name (p : PPath) : List Char := p.parts.getLastD []

/-- What is used of the computer: the regular files, the current directory and the directory of the user (absolute paths, as parts). -/
structure Env where
  isFile : List (List Char) → Bool
  cwd : List (List Char)
  home : List (List Char)

/-- `path.absolute()` -/
def Env.abs (E : Env) (p : PPath) : PPath := (⟨true, E.cwd⟩ : PPath).join p

/-- `path.is_file()`: from the current directory. -/
def Env.file (E : Env) (p : PPath) : Bool := E.isFile (E.abs p).parts

/-- `path.expanduser()` -/
def Env.expanduser (E : Env) (p : PPath) : PPath :=
  match p with
  | ⟨false, ['~'] :: l⟩ => ⟨true, E.home ++ l⟩
  | p => p

/-- A value of `params.reference` -/
inductive Ref where
  | int (i : Int)
  | path (p : PPath)

/-- works/bos.py 58-76 `_init_path_reference`.  `names` are the sorted names of the images.  The message of line 73 is the sum of a text
and of a path: it raises `TypeError`. -/
def initPathReference (E : Env) (serieDir : PPath) (names : List (List Char)) : Ref → Except PyErr PPath
  | .int i =>
    match pathReferenceOfInt (E.abs serieDir).parts names i with
    | .error e => .error e
    | .ok p => .ok ⟨true, p.dirs ++ [p.name]⟩
  | .path p =>
    let reference := E.expanduser p
    if E.file reference then .ok reference
    else
      let pathReference := (E.abs serieDir).join reference
      if !(E.file pathReference) then .error .typeError
      else .ok pathReference

/-- topologies/bos.py 170-189 `_fix_indices_images`; the names and indices are those of the serie. -/
def fixIndices {ι : Type} [DecidableEq ι] (serieDir : PPath) (serie : Serie ι) (ref : PPath) (indices : List ι) : List ι :=
  if !(ref.isRelativeTo serieDir) then indices
  else if !(serie.baseName.isPrefixOf ref.name) then indices
  else
    match serie.indicesOf ref.name with
    | .error _ => indices
    | .ok i => indices.erase i

/-- topologies/bos.py 22-33: the reference given to each process. -/
def referenceOfProcess (pathReference : PPath) : Ref := .path pathReference

end Verif.BosReference
