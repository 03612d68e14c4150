import Verif.Py.Basic
import Mathlib.Data.Rat.Floor
import Mathlib.Algebra.Order.Floor.Ring

/-!
# Model of the image viewer `fluidimviewer-pg`

`/repo/src/fluidimage/gui/pg_main.py:38-59, 81-94` (`dock`, `slideshow`, `main`) and `/repo/src/fluidimage/gui/pg_wrapper.py:41-48`
(`_add_dock`), 71-80 (`_win`), 82-119 (`view`), 121-165 (`_add_crosshair` and the function called when the mouse moves).

`pyqtgraph` is not in the repository.  It is described as follows.
* `DockArea.addDock` stores the dock in a dictionary with its title (a second dock with the same title replaces the first one in the
  dictionary, not in the window).
* `ImageView.setImage(a)`: an array with two dimensions is one image whose first axis is horizontal; with three dimensions it is one
  colour image if the last dimension is at most 4, and otherwise a list of images (first axis); with four dimensions, a list of colour
  images; otherwise it raises.
* A `SignalProxy` which is no longer referenced is deleted: its function is no longer called.

An image read in a file is an array of which the first axis is vertical.  Not modelled: sizes, positions, logs, the lines of the cross.
-/

namespace Verif.PgViewer
open Verif

/-- An array of numpy: its shape and its elements (whose indices are lists as long as the shape). -/
structure Arr where
  shape : List ℕ
  get : List ℕ → ℚ

/-- `a.transpose()` -/
def Arr.transpose (a : Arr) : Arr := ⟨a.shape.reverse, fun i => a.get i.reverse⟩

/-- `np.array(list)` for a list of arrays: they need the same shape. -/
def stack : List Arr → Except PyErr Arr
  | [] => .ok ⟨[0], fun _ => 0⟩
  | a :: l =>
    if l.all (fun b => b.shape == a.shape) then
      .ok ⟨(a :: l).length :: a.shape, fun i => match i with
        | [] => 0
        | k :: i => (((a :: l)[k]?).getD a).get i⟩
    else .error .valueError

/-- `a[k]` -/
def Arr.slice (a : Arr) (k : ℕ) : Arr := ⟨a.shape.tail, fun i => a.get (k :: i)⟩

/-- `ImageView.setImage`: the images which can be displayed, in order. -/
def setImage (a : Arr) : Except PyErr (List Arr) :=
  match a.shape with
  | [_, _] => .ok [a]
  | [n, _, k] => if k ≤ 4 then .ok [a] else .ok ((List.range n).map a.slice)
  | [n, _, _, _] => .ok ((List.range n).map a.slice)
  | _ => .error .valueError

/-- The files: is it a directory, and what `imread` gives. -/
structure Files where
  isDir : List Char → Bool
  read : List Char → Except PyErr Arr

/-- What an `ImageView` shows: its images, and their times (`xvals`). -/
structure View where
  frames : List Arr
  times : Option (List ℚ)

/-- pg_wrapper.py 107-116: `view` with one path. -/
def viewOne (fs : Files) (path : List Char) : Except PyErr View :=
  if fs.isDir path then .error .valueError
  else match fs.read path with
    | .error .attributeError => .error .valueError
    | .error e => .error e
    | .ok a => match setImage a.transpose with
      | .error e => .error e
      | .ok fr => .ok ⟨fr, none⟩

/-- pg_wrapper.py 99-102: the images read one after the other; the first error stops. -/
def readAll (fs : Files) : List (List Char) → Except PyErr (List Arr)
  | [] => .ok []
  | p :: ps => match fs.read p with
    | .error e => .error e
    | .ok a => match readAll fs ps with
      | .error e => .error e
      | .ok l => .ok (a.transpose :: l)

/-- `np.linspace(0, stop, n)` -/
def linspace0 (stop n : ℕ) : List ℚ :=
  (List.range n).map (fun i : ℕ => if n = 1 then 0 else (i : ℚ) * stop / ((n : ℚ) - 1))

/-- pg_wrapper.py 98-105: `view` with a list of paths. -/
def viewMany (fs : Files) (paths : List (List Char)) : Except PyErr View :=
  match readAll fs paths with
  | .error e => .error e
  | .ok l => match stack l with
    | .error e => .error e
    | .ok a => match setImage a with
      | .error e => .error e
      | .ok fr => .ok ⟨fr, some (linspace0 paths.length (a.shape.headD 0))⟩

/-- The window: the docks from left to right (title and what is in it), and which one has the function called when the mouse moves
(attribute `proxy`, 165: only the last one is kept). -/
structure Window where
  docks : List (List Char × Option View)
  proxy : Option ℕ

/-- pg_wrapper.py 78: index of the dock with this title in the dictionary (the last one which has been added). -/
def findDock (title : List Char) : List (List Char × Option View) → Option ℕ
  | [] => none
  | d :: ds => match findDock title ds with
    | some k => some (k + 1)
    | none => if d.1 = title then some 0 else none

/-- `os.path.basename` -/
def basename (p : List Char) : List Char := (p.reverse.takeWhile (· ≠ '/')).reverse

/-- pg_main.py 41-43, for one argument: a dock at the right, then the image in the dock with this title. -/
def dockOne (fs : Files) (w : Window) (arg : List Char) : Except PyErr Window :=
  let docks := w.docks ++ [(basename arg, none)]
  match findDock (basename arg) docks with
  | none => .error .keyError
  | some k => match viewOne fs arg with
    | .error e => .error e
    | .ok v => .ok ⟨docks.modify k (fun d => (d.1, some v)), some k⟩

/-- pg_main.py 38-47 -/
def dockLoop (fs : Files) : Window → List (List Char) → Except PyErr Window
  | w, [] => .ok w
  | w, arg :: args => match dockOne fs w arg with
    | .error e => .error e
    | .ok w => dockLoop fs w args

/-- pg_main.py 38-47 `dock` -/
def dock (fs : Files) (args : List (List Char)) : Except PyErr Window := dockLoop fs ⟨[], none⟩ args

/-- pg_main.py 50-59 `slideshow`: the title of the window and what it shows. -/
def slideshow (fs : Files) (args : List (List Char)) : Except PyErr (List Char × View) :=
  match args.head?, args.getLast? with
  | some a, some b => match viewMany fs args with
    | .error e => .error e
    | .ok v => .ok ("FluidImage ".toList ++ basename a ++ " to ".toList ++ basename b, v)
  | _, _ => .error .indexError

/-- `np.array([x], dtype=int)[0]`: truncation towards zero. -/
def trunc (x : ℚ) : ℤ := if 0 ≤ x then ⌊x⌋ else ⌈x⌉

/-- pg_wrapper.py 132-158: position and intensity of the label when the mouse is at `(x, y)` (coordinates of the image which is
displayed), `none` if the label is hidden.  An array with another number of dimensions than two: the shapes cannot be compared (149). -/
def mouseMoved (im : Arr) (x y : ℚ) : Except PyErr (Option (ℚ × ℚ × ℚ)) :=
  match im.shape with
  | [w, h] =>
    if (0 ≤ trunc x ∧ 0 ≤ trunc y) ∧ (trunc x ≤ w ∧ trunc y ≤ h) then
      if trunc x < w ∧ trunc y < h then .ok (some (x, y, im.get [(trunc x).toNat, (trunc y).toNat]))
      else .error .indexError
    else .ok none
  | _ => if 0 ≤ trunc x ∧ 0 ≤ trunc y then .error .valueError else .ok none

/-- The mouse moves over the dock `k`, whose frame `j` is displayed: nothing happens without function (165). -/
def hover (w : Window) (k j : ℕ) (x y : ℚ) : Except PyErr (Option (ℚ × ℚ × ℚ)) :=
  if w.proxy = some k then
    match w.docks[k]? with
    | some (_, some v) => match v.frames[j]? with
      | some im => mouseMoved im x y
      | none => .ok none
    | _ => .ok none
  else .ok none

end Verif.PgViewer
