import Verif.Py.Basic
import Mathlib.Algebra.Order.Ring.Rat

/-!
# Model of the window which displays the result of a PIV computation

`/repo/src/fluidimage/data_objects/display_piv.py` 32-436 (`DisplayPIV`),
`/repo/src/fluidimage/data_objects/piv.py` 320-350 (`HeavyPIVResults.display`).

Modelled: which arrays are drawn, the arrows, what the constructor changes in the result, the arrows of the removed vectors, and what is
shown when an arrow is picked (text and marks on the map of the correlation).  Not modelled: the drawing by matplotlib, the images (see `DisplayPivImages`),
the histograms (see `DisplayPivHist`), the limits of the axes.  A number is a rational or nan (`none`).
-/

namespace Verif.DisplayPiv
open Verif

/-- A number or nan. -/
abbrev Val := Option ℚ

def neg (v : Val) : Val := v.map Neg.neg

def sub (a b : Val) : Val :=
  match a, b with
  | some a, some b => some (a - b)
  | _, _ => none

/-- Arrays of the same length: positions and displacements. -/
structure Field where
  xs : List ℚ
  ys : List ℚ
  us : List Val
  vs : List Val
deriving DecidableEq

/-- A Python dictionary whose keys are indices of vectors. -/
abbrev Dict (α : Type) := List (Nat × α)

/-- The attributes of `HeavyPIVResults` which are used for the map of the correlations.  `input`: `deltaxs_input` and `deltays_input`
(not for the first pass); `noDispl`: `indices_no_displacement`, the pair `(iy0, ix0)`; `others`: `secondary_peaks`, `none` when
`nb_peaks_to_search` is 1. -/
structure Correls where
  noDispl : ℚ × ℚ
  input : Option (List Val × List Val)
  replaced : Option (Dict (Val × Val))
  others : Option (List (Option (List (ℚ × ℚ))))

/-- The attributes of `HeavyPIVResults` (piv.py 258-318): `raw` is `xs`, `ys`, `deltaxs`, `deltays`; the other fields can be absent.
`wrong`: `deltaxs_wrong` and `deltays_wrong`.  `correls`: absent for a result which has been loaded from a file. -/
structure Res where
  raw : Field
  smooth : Option Field
  approx : Option Field
  final : Option Field
  wrong : Option (Dict Val × Dict Val)
  errors : Option (Dict String)
  correlsMax : Option (List Val)
  correls : Option Correls

/-- The argument `show_interp`. -/
inductive Interp where
  | no
  | yes
  | smooth
deriving DecidableEq

/-- The arrays which are drawn. -/
inductive Which where
  | raw
  | smooth
  | approx
  | final
deriving DecidableEq

/-- display_piv.py 131-152 -/
def which (r : Res) : Interp → Which
  | .smooth => .smooth
  | .yes => if r.approx.isSome then .approx else .final
  | .no => .raw

def field (r : Res) : Which → Except PyErr Field
  | .raw => .ok r.raw
  | .smooth => match r.smooth with
    | none => .error .attributeError
    | some f => .ok f
  | .approx => match r.approx with
    | none => .error .attributeError
    | some f => .ok f
  | .final => match r.final with
    | none => .error .attributeError
    | some f => .ok f

/-- display_piv.py 154-155, `deltays *= -1`: the array of the result is modified. -/
def Field.flip (f : Field) : Field := { f with vs := f.vs.map neg }

def flip (r : Res) : Which → Res
  | .raw => { r with raw := r.raw.flip }
  | .smooth => { r with smooth := r.smooth.map Field.flip }
  | .approx => { r with approx := r.approx.map Field.flip }
  | .final => { r with final := r.final.map Field.flip }

/-- An arrow as it is given to `quiver`: its position, its component to the right and its component to the top of the window. -/
structure Arrow where
  x : ℚ
  y : ℚ
  right : Val
  up : Val
deriving DecidableEq

def arrows : List ℚ → List ℚ → List Val → List Val → List Arrow
  | x :: xs, y :: ys, u :: us, v :: vs => ⟨x, y, u, neg v⟩ :: arrows xs ys us vs
  | _, _, _, _ => []

/-- `array[indices]` -/
def pick {α : Type} (l : List α) : List Nat → Except PyErr (List α)
  | [] => .ok []
  | i :: is => match l[i]? with
    | none => .error .indexError
    | some a => match pick l is with
      | .error e => .error e
      | .ok as => .ok (a :: as)

/-- `[dictionary[i] for i in indices]` -/
def values {α : Type} (d : Dict α) : List Nat → Except PyErr (List α)
  | [] => .ok []
  | i :: is => match d.lookup i with
    | none => .error .keyError
    | some a => match values d is with
      | .error e => .error e
      | .ok as => .ok (a :: as)

/-- What is in the window: the arrows (`q`), and for the vectors which have been removed, the arrows (`q_wrong`) with their indices, and
the arrows of those which were nan (`q_isnan`) with their indices. -/
structure Window where
  q : List Arrow
  qWrong : Option (List Arrow × List Nat)
  qNan : Option (List Arrow × List Nat)
deriving DecidableEq

/-- display_piv.py 172-215: the arrows of the removed vectors; `img`: there are images. -/
def wrongArrows (img : Bool) (f : Field) (wx wy : Dict Val) : Except PyErr ((List Arrow × List Nat) × (List Arrow × List Nat)) :=
  let inds := wy.map Prod.fst
  match pick f.xs inds with
  | .error e => .error e
  | .ok xs => match pick f.ys inds with
    | .error e => .error e
    | .ok ys => match values wx inds with
      | .error e => .error e
      | .ok us => match values wy inds with
        | .error e => .error e
        | .ok vs =>
          let vs := if img then vs else vs.map neg
          let indsNan := ((inds.zip us).filter fun p => p.2.isNone).map Prod.fst
          match pick f.xs indsNan with
          | .error e => .error e
          | .ok xsn => match pick f.ys indsNan with
            | .error e => .error e
            | .ok ysn =>
              .ok ((arrows xs ys us vs, inds), (arrows xsn ysn (xsn.map fun _ => some 0) (xsn.map fun _ => some 0), indsNan))

/-- display_piv.py 131-215: the constructor.  `img`: the images have been read (piv.py 334-337).  The result after and the window. -/
def openWindow (img : Bool) (interp : Interp) (showError : Bool) (r : Res) : Except PyErr (Res × Window) :=
  match field r (which r interp) with
  | .error e => .error e
  | .ok f =>
    let r' := if img then r else flip r (which r interp)
    let f' := if img then f else f.flip
    let q := arrows f'.xs f'.ys f'.us f'.vs
    match showError, r.wrong with
    | true, some (wx, wy) => match wrongArrows img f' wx wy with
      | .error e => .error e
      | .ok (w, n) => .ok (r', ⟨q, some w, some n⟩)
    | _, _ => .ok (r', ⟨q, none, none⟩)

/-- The group of arrows in which an arrow is picked. -/
inductive Artist where
  | q
  | wrong
  | nan
  | other
deriving DecidableEq

/-- The marks on the map of the correlation: red circle (no displacement), red cross (peak which has been chosen), white disk (final
displacement), red triangle (peak which has been replaced) and red plus signs (other peaks); abscissa and ordinate of each mark. -/
structure Marks where
  origin : ℚ × ℚ
  cross : Val × Val
  final : Option (Val × Val)
  replaced : Option (Val × Val)
  others : List (Val × Val)
deriving DecidableEq

/-- What is shown when an arrow is picked: the text (index, position, displacement, correlation, error) and the marks. -/
structure Shown where
  index : Nat
  x : ℚ
  y : ℚ
  u : Val
  v : Val
  correl : Option Val
  error : Option String
  marks : Option Marks
deriving DecidableEq

/-- The group of arrows and the index of the vector: display_piv.py 293-303. -/
def target (w : Window) (ind : Nat) : Artist → Except PyErr (List Arrow × Nat)
  | .q => .ok (w.q, ind)
  | .wrong => match w.qWrong with
    | none => .error .attributeError
    | some (q, inds) => match inds[ind]? with
      | none => .error .indexError
      | some i => .ok (q, i)
  | .nan => match w.qNan with
    | none => .error .attributeError
    | some (q, inds) => match inds[ind]? with
      | none => .error .indexError
      | some i => .ok (q, i)
  | .other => .error .notImplementedError

/-- correl.py 64-65 `compute_indices_from_displacement`: abscissa and ordinate in the map. -/
def mapIndices (dx dy : Val) (noDispl : ℚ × ℚ) : Val × Val := (sub (some noDispl.2) dx, sub (some noDispl.1) dy)

/-- 357-361, 373-377, 391-395: minus the displacement of the windows, if there is one. -/
def minusInput (c : Correls) (i : Nat) (d : Val × Val) : Except PyErr (Val × Val) :=
  match c.input with
  | none => .ok d
  | some (ix, iy) => match ix[i]?, iy[i]? with
    | some a, some b => .ok (sub d.1 a, sub d.2 b)
    | _, _ => .error .indexError

/-- 369-383: the mark of the final displacement. -/
def finalMark (r : Res) (c : Correls) (i : Nat) : Except PyErr (Option (Val × Val)) :=
  match r.final with
  | none => .ok none
  | some f => match f.us[i]?, f.vs[i]? with
    | some u, some v => match minusInput c i (u, v) with
      | .error e => .error e
      | .ok d => .ok (some (mapIndices d.1 d.2 c.noDispl))
    | _, _ => .error .indexError

/-- 385-399: the mark of the peak which has been replaced. -/
def replacedMark (c : Correls) (i : Nat) : Except PyErr (Option (Val × Val)) :=
  match c.replaced with
  | none => .ok none
  | some d => match d.lookup i with
    | none => .ok none
    | some b => match minusInput c i b with
      | .error e => .error e
      | .ok b => .ok (some (mapIndices b.1 b.2 c.noDispl))

/-- 403-421: the marks of the other peaks. -/
def otherMarks (c : Correls) (i : Nat) : Except PyErr (List (Val × Val)) :=
  match c.others with
  | none => .ok []
  | some l => match l[i]? with
    | none => .error .indexError
    | some none => .ok []
    | some (some ps) => .ok (ps.map fun p => mapIndices (some p.1) (some p.2) c.noDispl)

/-- 340-421 -/
def marks (r : Res) (c : Correls) (i : Nat) (u v : Val) : Except PyErr Marks :=
  match minusInput c i (u, v) with
  | .error e => .error e
  | .ok d => match finalMark r c i with
    | .error e => .error e
    | .ok f => match replacedMark c i with
      | .error e => .error e
      | .ok b => match otherMarks c i with
        | .error e => .error e
        | .ok o => .ok ⟨c.noDispl, mapIndices d.1 d.2 c.noDispl, f, b, o⟩

/-- 310-319: the displacement of the vector `i`, or the one which has been removed. -/
def displacement (r : Res) (i : Nat) : Except PyErr (Val × Val) :=
  match r.raw.us[i]?, r.raw.vs[i]? with
  | some u, some v =>
    if u.isSome then .ok (u, v)
    else match r.wrong with
      | none => .error .attributeError
      | some (wx, wy) => match wx.lookup i, wy.lookup i with
        | some u, some v => .ok (u, v)
        | _, _ => .error .keyError
  | _, _ => .error .indexError

/-- 329-331 -/
def correlOf (r : Res) (i : Nat) : Except PyErr (Option Val) :=
  match r.correlsMax with
  | none => .ok none
  | some l => match l[i]? with
    | none => .error .indexError
    | some c => .ok (some c)

/-- 333-337 -/
def errorOf (r : Res) (i : Nat) : Option String :=
  match r.errors with
  | none => none
  | some d => d.lookup i

/-- 309-436: what is shown for the arrow `a` of the vector `i`; `showCorrel`: the argument of the constructor (53-60). -/
def describe (showCorrel : Bool) (r : Res) (a : Arrow) (i : Nat) : Except PyErr Shown :=
  match displacement r i with
  | .error e => .error e
  | .ok (u, v) => match correlOf r i with
    | .error e => .error e
    | .ok c => match showCorrel, r.correls with
      | true, some m => match marks r m i u v with
        | .error e => .error e
        | .ok k => .ok ⟨i, a.x, a.y, u, v, c, errorOf r i, some k⟩
      | _, _ => .ok ⟨i, a.x, a.y, u, v, c, errorOf r i, none⟩

/-- 277-436 `select_arrow`, for an event given by matplotlib (`ind`: the first index of `event.ind`), with `sel` the vector which is
selected: the vector which is selected after and what is shown, if it changes. -/
def selectArrow (showCorrel : Bool) (r : Res) (w : Window) (sel ind : Nat) (artist : Artist) : Nat × Except PyErr (Option Shown) :=
  match target w ind artist with
  | .error e => (sel, .error e)
  | .ok (q, i) => match q[ind]? with
    | none => (sel, .ok none)
    | some a =>
      if sel = i then (sel, .ok none)
      else match describe showCorrel r a i with
        | .error e => (i, .error e)
        | .ok s => (i, .ok (some s))

/-- 263-275 `onpick`; `other`: something else has been picked.  Without `q_wrong`, the comparison fails. -/
def onPick (showCorrel : Bool) (r : Res) (w : Window) (sel ind : Nat) (artist : Artist) : Nat × Except PyErr (Option Shown) :=
  match artist with
  | .other => if w.qWrong.isSome then (sel, .ok none) else (sel, .error .attributeError)
  | a => selectArrow showCorrel r w sel ind a

/-- 247-261 `onclick` for `alt+left` and `alt+right`: `select_arrow` is called with a number, and `ind[0]` (279) raises `TypeError` (or
`IndexError` for a number of numpy): nothing happens. -/
def onArrowKey (sel : Nat) : Nat × Except PyErr (Option Shown) := (sel, .ok none)

end Verif.DisplayPiv
