import Verif.Model.LogPlot
import Verif.Model.Uvmat
import Verif.Py.Text

/-!
# Model of the choice of the files shown by the viewers

* `/repo/src/fluidimage/gui/imviewer.py:24-37` (`extensions`, `check_image`), 77-101 (`ImageViewer.__init__`);
* `/repo/src/fluidimage/gui/piv_viewer.py:96-146` (`VectorFieldsViewer.__init__`, `_init_name_files`).

The functions of the standard library which decide: `glob.glob`, `fnmatch` and `os.path` (POSIX), modelled here.

Simplifications: no `..` in the paths, no symbolic link; a path with a slash at its end is the path without it (for the system a regular
file with a slash at its end does not exist); in `fnmatch` a set `[…]` is read from left to right as a sequence of characters and ranges;
the case of one file with the extension `.cine` is not modelled.  `SerieOfArraysFromFiles` of fluiddyn is not in the repository: its
attributes `base_name` and `extension_file` are given by a parameter.
-/

namespace Verif.ViewerFiles
open Verif Verif.Text
open Verif.LogPlot (txtLe)
open Verif.Uvmat (pathJoin)

abbrev Txt := List Char

/-! ## The file system and `os.path` -/

/-- The directories (the components of their absolute paths) with the names of their entries, in the order given by the system, and the
current directory. -/
structure Fs where
  dirs : List (List Txt × List Txt)
  cwd : List Txt
deriving DecidableEq, Repr

/-- The components of a path. -/
def comps (p : Txt) : List Txt := (splitChar '/' p).filter (fun c => decide (c ≠ [] ∧ c ≠ ['.']))

def resolve (fs : Fs) (p : Txt) : List Txt := if p.head? = some '/' then comps p else fs.cwd ++ comps p

/-- `os.listdir(p or os.curdir)`; `none`: not a directory. -/
def listdir (fs : Fs) (p : Txt) : Option (List Txt) := fs.dirs.lookup (resolve fs p)

/-- `os.path.isdir(p)` -/
def isdir (fs : Fs) (p : Txt) : Bool := p ≠ [] && (listdir fs p).isSome

/-- Is the last of these components a name of the directory given by the others? -/
def inParent (fs : Fs) (l : List Txt) : Bool :=
  match l.getLast? with
  | none => true
  | some name =>
    match fs.dirs.lookup l.dropLast with
    | none => false
    | some names => names.contains name

/-- `os.path.lexists(p)` -/
def lexists (fs : Fs) (p : Txt) : Bool := p ≠ [] && ((listdir fs p).isSome || inParent fs (resolve fs p))

/-- `head.rstrip("/")` -/
def rstripSlash (p : Txt) : Txt := (p.reverse.dropWhile (fun c => c == '/')).reverse

/-- What is after the last slash, and what is before, with this slash. -/
def tailOf (p : Txt) : Txt := (p.reverse.takeWhile (fun c => c != '/')).reverse

def headOf (p : Txt) : Txt := (p.reverse.dropWhile (fun c => c != '/')).reverse

/-- `os.path.split(p)` -/
def osSplit (p : Txt) : Txt × Txt :=
  (if (headOf p).all (fun c => c == '/') then headOf p else rstripSlash (headOf p), tailOf p)

/-! ## `fnmatch` -/

inductive Tok where
  | lit (c : Char)
  | any
  | star
  | cls (neg : Bool) (items : List (Char × Char))
deriving DecidableEq, Repr

/-- The text of the set which starts after `[` and what follows its `]`, if there is one. -/
def closing (p : Txt) : Option (Txt × Txt) :=
  let a := if p.head? = some '!' then 1 else 0
  let b := if p[a]? = some ']' then a + 1 else a
  let k := (p.drop b).idxOf ']'
  if k < (p.drop b).length then some (p.take (b + k), p.drop (b + k + 1)) else none

/-- The characters and ranges of a set. -/
def items : Txt → List (Char × Char)
  | a :: '-' :: b :: r => (a, b) :: items r
  | a :: r => (a, a) :: items r
  | [] => []

def setOf (stuff : Txt) : Tok :=
  match stuff with
  | '!' :: r => .cls true (items r)
  | r => .cls false (items r)

/-- `fnmatch.translate`; the first argument is at least the length of the pattern. -/
def tokenize : Nat → Txt → List Tok
  | 0, _ => []
  | _ + 1, [] => []
  | n + 1, c :: p =>
    if c = '*' then .star :: tokenize n p
    else if c = '?' then .any :: tokenize n p
    else if c = '[' then
      match closing p with
      | none => .lit c :: tokenize n p
      | some (stuff, rest) => setOf stuff :: tokenize n rest
    else .lit c :: tokenize n p

def inSet (neg : Bool) (l : List (Char × Char)) (c : Char) : Bool := (l.any fun r => decide (r.1 ≤ c) && decide (c ≤ r.2)) != neg

def matchToks : List Tok → Txt → Bool
  | [], n => n.isEmpty
  | .star :: ts, n => n.tails.any (fun m => matchToks ts m)
  | .lit c :: ts, n => match n with
    | [] => false
    | x :: n => x == c && matchToks ts n
  | .any :: ts, n => match n with
    | [] => false
    | _ :: n => matchToks ts n
  | .cls neg l :: ts, n => match n with
    | [] => false
    | x :: n => inSet neg l x && matchToks ts n

/-- `fnmatch.fnmatch(name, pattern)` -/
def fnmatch (name pattern : Txt) : Bool := matchToks (tokenize pattern.length pattern) name

/-! ## `glob` -/

/-- `glob.has_magic` -/
def hasMagic (p : Txt) : Bool := p.any (fun c => c == '*' || c == '?' || c == '[')

def hidden (n : Txt) : Bool := n.head? = some '.'

/-- `glob._glob1`: the entries of a directory which match a pattern. -/
def glob1 (fs : Fs) (d pattern : Txt) : List Txt :=
  match listdir fs d with
  | none => []
  | some names => (if hidden pattern then names else names.filter (fun n => !hidden n)).filter (fun n => fnmatch n pattern)

/-- `glob._glob0` -/
def glob0 (fs : Fs) (d b : Txt) : List Txt :=
  if b = [] then (if isdir fs d then [b] else []) else if lexists fs (pathJoin d b) then [b] else []

/-- `glob._iglob`, not recursive; the first argument is more than the length of the path. -/
def globN (fs : Fs) : Nat → Txt → List Txt
  | 0, _ => []
  | n + 1, p =>
    let d := (osSplit p).1
    let b := (osSplit p).2
    if !hasMagic p then
      if b = [] then (if isdir fs d then [p] else []) else if lexists fs p then [p] else []
    else if d = [] then glob1 fs d b
    else
      (if d ≠ p && hasMagic d then (globN fs n d).filter (isdir fs) else [d]).flatMap fun d =>
        (if hasMagic b then glob1 fs d b else glob0 fs d b).map (pathJoin d)

/-- `glob.glob(p)` -/
def glob (fs : Fs) (p : Txt) : List Txt := globN fs (p.length + 1) p

/-! ## The viewer of images -/

/-- imviewer.py:24-25 -/
def extensions : List Txt :=
  [['.', 'p', 'n', 'g'], ['.', 't', 'i', 'f'], ['.', 't', 'i', 'f', 'f'], ['.', 'j', 'p', 'g'], ['.', 'j', 'p', 'e', 'g'],
    ['.', 'b', 'm', 'p'], ['.', 'c', 'i', 'n', 'e']]

/-- imviewer.py:35-36 `check_image` -/
def checkImage (path : Txt) : Bool := extensions.any (fun e => e.isSuffixOf path)

/-- imviewer.py:81-85 and 89-93: the sorted paths of the images of a directory. -/
def pathFiles (fs : Fs) (d : Txt) : List Txt :=
  ((glob fs (pathJoin d ['*'])).filter checkImage).insertionSort (fun a b => txtLe a b = true)

/-- imviewer.py:98-99 -/
def notEmpty (files : List Txt) (i : Nat) : Except PyErr (List Txt × Nat) :=
  if files = [] then .error .valueError else .ok (files, i)

/-- imviewer.py:77-99: the paths of the images and the index of the first one which is shown. -/
def openImages (fs : Fs) (path : Txt) : Except PyErr (List Txt × Nat) :=
  if isdir fs path then notEmpty (pathFiles fs path) 0
  else
    match glob fs path with
    | [] => .error .indexError
    | f :: _ =>
      let files := pathFiles fs (osSplit f).1
      if files.contains f then notEmpty files (files.idxOf f) else .error .valueError

/-! ## The viewer of vector fields -/

/-- piv_viewer.py:134-143: `self.path_dir.glob(base_name + "*" + extension)` (pathlib: hidden files are not special). -/
def nameFiles (names : List Txt) (base ext : Txt) : List Txt :=
  (names.filter (fun n => fnmatch n (base ++ '*' :: ext))).insertionSort (fun a b => txtLe a b = true)

/-- piv_viewer.py:99-131, for the names of a directory.  `file`: the name of the file which is given, none if the path is the directory;
`serie`: the base name and the extension of the series of a file.  `SystemExit`: "No PIV files found". -/
def openPiv (serie : Txt → Txt × Txt) (names : List Txt) (file : Option Txt) : Except PyErr (List Txt × Nat) :=
  match file with
  | some n =>
    let files := nameFiles names (serie n).1 (serie n).2
    if files.contains n then .ok (files, files.idxOf n) else .error .valueError
  | none =>
    match names.filter (fun n => ['p', 'i', 'v'].isPrefixOf n) with
    | [] => .error .systemExit
    | n :: _ =>
      match nameFiles names (serie n).1 (serie n).2 with
      | [] => .error .indexError
      | f :: fs => .ok (f :: fs, 0)

end Verif.ViewerFiles
