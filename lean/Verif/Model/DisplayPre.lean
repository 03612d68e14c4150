import Verif.Py.Basic
import Verif.Model.ResultsFiles
import Mathlib.Algebra.Order.Ring.Rat
import Mathlib.Data.Rat.Floor
import Mathlib.Data.List.Sort

/-!
# Model of the window in which a treatment of images is tried

`/repo/src/fluidimage/data_objects/display_pre.py` 14-165 (`DisplayPreProc`), `/repo/src/fluidimage/works/preproc/__init__.py` 100-121
(`WorkPreproc.calcul` for a serie), 123-138 (`_make_dict_to_save`), 140-160 (`WorkPreproc.display`),
`/repo/src/fluidimage/works/image2image.py` 86-103 (`WorkImage2Image.calcul` and `display`).

The arrays are in a memory, because the constructor of the window modifies the arrays which it receives and because numpy arrays can share
their memory (views).  Not modelled: the histograms (`hist=True`), the limits and the labels of the axes, the colours of matplotlib, nan.
The numbers are exact: the percentile is the one of numpy (method "linear") without rounding.  All arrays can be written.
-/

namespace Verif.DisplayPre
open Verif Verif.ResultsFiles

/-- A block of memory: the type of its values (integers or floats) and its values. -/
structure Buffer where
  isInt : Bool
  vals : List ℚ
deriving DecidableEq

abbrev Heap := List Buffer

/-- A numpy array with two dimensions: the number of its block of memory, the place in the block of each pixel (row by row), and its
shape.  A view is an array with the same block. -/
structure Arr where
  buf : Nat
  places : List Nat
  ny : Nat
  nx : Nat
deriving DecidableEq

/-- The values of the pixels, row by row. -/
def pixels (h : Heap) (a : Arr) : List ℚ :=
  match h[a.buf]? with
  | none => []
  | some b => a.places.map fun (j : Nat) => b.vals.getD j 0

/-- The position `(n - 1) q / 100` in the sorted values. -/
def rank (q : ℚ) (n : Nat) : ℚ := ((n : ℚ) - 1) * q / 100

/-- numpy: interpolation between the two values around the rank in a sorted list. -/
def interpolate (r : ℚ) (s : List ℚ) : ℚ :=
  let k := ⌊r⌋.toNat
  let lo := s.getD k 0
  let hi := s.getD (k + 1) lo
  lo + (r - k) * (hi - lo)

/-- `np.percentile(values, q)` -/
def percentile (q : ℚ) (vals : List ℚ) : Except PyErr ℚ :=
  if q < 0 ∨ 100 < q then .error .valueError
  else match vals with
    | [] => .error .indexError
    | _ => .ok (interpolate (rank q vals.length) (vals.insertionSort (· ≤ ·)))

/-- The conversion of a float which is assigned in an array: truncation towards 0 for the integers. -/
def convert (isInt : Bool) (p : ℚ) : ℚ :=
  if isInt then (if 0 ≤ p then (⌊p⌋ : ℚ) else (⌈p⌉ : ℚ)) else p

/-- `im[im > p] = p` in the values of a block of memory. -/
def clipVals (isInt : Bool) (places : List Nat) (p : ℚ) (vals : List ℚ) : List ℚ :=
  vals.mapIdx fun (j : Nat) v => if j ∈ places ∧ p < v then convert isInt p else v

/-- display_pre.py 44-47: `im[im > p] = p`, in place. -/
def clip (h : Heap) (a : Arr) (p : ℚ) : Heap :=
  h.modify a.buf fun b => { b with vals := clipVals b.isInt a.places p b.vals }

/-- What is drawn by `imshow`: the pixels, the shape, and the extent (height and width) on which it is stretched. -/
structure Picture where
  pixels : List ℚ
  ny : Nat
  nx : Nat
  height : Nat
  width : Nat
deriving DecidableEq

/-- One of the two axes: two pictures, their visibility, and the number in the title. -/
structure Axes where
  im0 : Picture
  im1 : Picture
  visible0 : Bool
  visible1 : Bool
  title : Nat
deriving DecidableEq

/-- The window: the axes of the images (`ax1`) and those of the treated images (`ax2`). -/
structure Window where
  left : Axes
  right : Axes
deriving DecidableEq

/-- display_pre.py 49-81: the pictures of two arrays, the second one is drawn on the extent of the first one. -/
def axes (h : Heap) (a b : Arr) : Axes :=
  ⟨⟨pixels h a, a.ny, a.nx, a.ny, a.nx⟩, ⟨pixels h b, b.ny, b.nx, a.ny, a.nx⟩, true, false, 0⟩

/-- display_pre.py 44-47 -/
def clipAll (h : Heap) (a b c d : Arr) (pa pb pc pd : ℚ) : Heap := clip (clip (clip (clip h a pa) b pb) c pc) d pd

/-- display_pre.py 17-143 `DisplayPreProc(im0, im1, im0p, im1p, pourcent_histo)`: the memory after and the window. -/
def openWindow (q : ℚ) (h : Heap) (im0 im1 im0p im1p : Arr) : Except PyErr (Heap × Window) :=
  match percentile q (pixels h im0) with
  | .error e => .error e
  | .ok p0 => match percentile q (pixels h im1) with
    | .error e => .error e
    | .ok p1 => match percentile q (pixels h im0p) with
      | .error e => .error e
      | .ok p0p => match percentile q (pixels h im1p) with
        | .error e => .error e
        | .ok p1p =>
          let h' := clipAll h im0 im1 im0p im1p p0 p1 p0p p1p
          .ok (h', ⟨axes h' im0 im1, axes h' im0p im1p⟩)

/-- display_pre.py 150-155 and 159-164: the visibilities are inverted, and the title is the number of the image 1 if it is visible. -/
def Axes.switch (a : Axes) : Axes :=
  let v1 := !a.visible1
  ⟨a.im0, a.im1, !a.visible0, v1, if v1 then 1 else 0⟩

/-- display_pre.py 149-165 `switch` -/
def Window.switch (w : Window) : Window := ⟨w.left.switch, w.right.switch⟩

/-- display_pre.py 145-147 `onclick` -/
def Window.key (w : Window) (k : Txt) : Window := if k = "alt+s".toList then w.switch else w

/-- A sequence of keys. -/
def Window.keys (w : Window) (ks : List Txt) : Window := ks.foldl Window.key w

/-! ## `WorkImage2Image.display` -/

/-- A function of images: it is called with the path and the array and can write in the memory. -/
abbrev Fun := Heap → Txt × Arr → Except PyErr (Heap × Arr)

/-- The files of the work: the names, in order, and the image of each file. -/
structure Image where
  isInt : Bool
  vals : List ℚ
  ny : Nat
  nx : Nat
deriving DecidableEq

/-- A new array. -/
def alloc (h : Heap) (im : Image) : Heap × Arr := (h ++ [⟨im.isInt, im.vals⟩], ⟨h.length, List.range im.vals.length, im.ny, im.nx⟩)

/-- works/__init__.py 214-219 `get_tuple_image_name`: a new array read in the file and the name. -/
def getImage (files : List (Txt × Image)) (h : Heap) (ind : Nat) : Except PyErr (Heap × Arr × Txt) :=
  match files[ind]? with
  | none => .error .indexError
  | some (name, im) => .ok ((alloc h im).1, (alloc h im).2, name)

/-- works/image2image.py 89-103 `display(ind)`: the memory and the window. -/
def displayIm2im (f : Fun) (files : List (Txt × Image)) (h : Heap) (ind : Nat) : Except PyErr (Heap × Window) :=
  match getImage files h ind with
  | .error e => .error e
  | .ok (h, im0, name0) => match getImage files h (ind + 1) with
    | .error e => .error e
    | .ok (h, im1, name1) => match f h (name0, im0) with
      | .error e => .error e
      | .ok (h, im0p) => match f h (name1, im1) with
        | .error e => .error e
        | .ok (h, im1p) => openWindow 99 h im0 im1 im0p im1p

/-! ## `WorkPreproc.display` -/

/-- A serie of images given by fluiddyn: the names of its files and the number of its indices. -/
structure Serie where
  names : List Txt
  nbIndices : Nat
deriving DecidableEq

/-- The directory, the series and the tools (`Model/PreprocTools.lean`). -/
structure Ext where
  /-- `get_serie(ind)` -/
  serie : Int → Except PyErr Serie
  imread : Txt → Except PyErr Image
  tools : List Image → Except PyErr (List Image)

/-- `serie.get_arrays()` -/
def readAll (E : Ext) : List Txt → Except PyErr (List Image)
  | [] => .ok []
  | n :: ns => match E.imread n with
    | .error e => .error e
    | .ok im => match readAll E ns with
      | .error e => .error e
      | .ok ims => .ok (im :: ims)

/-- `dict(zip(names, images))`, read at a name: the last value given to the name. -/
def lookupLast (names : List Txt) (ims : List Image) (name : Txt) : Option Image := ((names.zip ims).reverse).lookup name

/-- `np.array(arrays)` raises `ValueError` if the shapes are different; otherwise one array. -/
def sameShape : List Image → Bool
  | [] => true
  | im :: ims => ims.all fun j => j.ny == im.ny && j.nx == im.nx

/-- works/preproc/__init__.py 100-121 `calcul(serie)`, with 123-138: `ind_serie = 0` and `nb_series = 1`, so all images are kept
(data_objects/preproc.py 25-57: `get_ind_middle` is called anyway).  The result as the association of the names and the images. -/
def calcul (E : Ext) (s : Serie) : Except PyErr (Txt → Option Image) :=
  match readAll E s.names with
  | .error e => .error e
  | .ok ims =>
    if !sameShape ims then .error .valueError
    else match E.tools ims with
      | .error e => .error e
      | .ok outs =>
        if s.nbIndices = 0 then .error .indexError
        else if 2 < s.nbIndices then .error .notImplementedError
        else .ok (lookupLast s.names outs)

/-- `serie.get_name_arrays()[0]` -/
def firstName (s : Serie) : Except PyErr Txt :=
  match s.names with
  | [] => .error .indexError
  | n :: _ => .ok n

def item (r : Txt → Option Image) (k : Txt) : Except PyErr Image :=
  match r k with
  | none => .error .keyError
  | some im => .ok im

/-- The window on four new arrays. -/
def openImages (h : Heap) (a b c d : Image) : Except PyErr (Heap × Window) :=
  let A := alloc h a
  let B := alloc A.1 b
  let C := alloc B.1 c
  let D := alloc C.1 d
  openWindow 99 D.1 A.2 B.2 C.2 D.2

/-- works/preproc/__init__.py 146-156: the four images, once the two series are known. -/
def fourImages (E : Ext) (s0 s1 : Serie) : Except PyErr (Image × Image × Image × Image) :=
  match calcul E s0 with
  | .error e => .error e
  | .ok r0 => match calcul E s1 with
    | .error e => .error e
    | .ok r1 => match firstName s0 with
      | .error e => .error e
      | .ok k0 => match firstName s1 with
        | .error e => .error e
        | .ok k1 => match E.imread k0 with
          | .error e => .error e
          | .ok a => match E.imread k1 with
            | .error e => .error e
            | .ok b => match item r0 k0 with
              | .error e => .error e
              | .ok c => match item r1 k1 with
                | .error e => .error e
                | .ok d => .ok (a, b, c, d)

/-- works/preproc/__init__.py 140-160 `display(ind)` -/
def displayPreproc (E : Ext) (h : Heap) (ind : Int) : Except PyErr (Heap × Window) :=
  match E.serie ind with
  | .error e => .error e
  | .ok s0 => match E.serie (ind + 1) with
    | .error e => .error e
    | .ok s1 => match fourImages E s0 s1 with
      | .error e => .error e
      | .ok (a, b, c, d) => openImages h a b c d

end Verif.DisplayPre
