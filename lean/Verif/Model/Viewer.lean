import Verif.Model.PivResults
import Verif.Model.ResultsFiles
import Mathlib.Algebra.Order.Ring.Rat

/-!
# Model of the viewers of images and of vector fields

`/repo/src/fluidimage/gui/imviewer.py` (`ImageViewer`) and `/repo/src/fluidimage/gui/piv_viewer.py` (`VectorFieldsViewer`).

The viewers are objects with a state, modified by the events of the user.  What matplotlib does is represented as
follows: a function called by an event may raise an exception, which is printed, and the application goes on; among the
images which are visible in the axes, the last one which has been added hides the other ones (they are drawn in this
order); `TextBox.set_val` does nothing if the text is the same, otherwise it calls the function registered with
`on_submit`; `Quiver.set_UVC` changes the components of the arrows, not their positions, and raises a `ValueError` if the
number of components is not the number of arrows.
-/

namespace Verif.Viewer
open Verif

/-! ## Images -/

/-- What is known of an image: its minimum and its maximum. -/
structure Img (α : Type) where
  data : α
  lo : ℚ
  hi : ℚ
deriving DecidableEq

/-- An object returned by `imshow` (`mappable`): the image which is drawn, whether it is visible and its colour limits. -/
structure Drawn (α : Type) where
  img : Img α
  visible : Bool
  clim : ℚ × ℚ
deriving DecidableEq

/-- The value of a text typed by the user (`safe_eval`, simpleeval): an integer, another number, something else, or an
exception. -/
inductive Value where
  | int (k : Int)
  | number (q : ℚ)
  | other
  | raises
deriving DecidableEq

/-- The texts: `fmt x` is `"{:.2f}".format(x)`, `value` is what `safe_eval` gives. -/
structure Texts (τ : Type) where
  fmt : ℚ → τ
  value : τ → Value

/-- The attributes of `ImageViewer`: `nb`: number of files; `ifile` (`none`: a number which is not an integer); `drawn`: the
images added to the axes, in order; `cur`: the one which is `self.mappable`; `maps`: the dictionary `self.maps`; `title`: the
index of the file whose name is the title; `changing`: `_image_changing`; `n`: `_n`;
`clim`; `lastInc`: `_last_was_increase`; the texts of the two boxes. -/
structure View (α τ : Type) where
  nb : Nat
  ifile : Option Int
  drawn : List (Drawn α)
  cur : Nat
  maps : List (Nat × Nat)
  title : Nat
  changing : Bool
  n : Value
  clim : ℚ × ℚ
  lastInc : Bool
  boxMin : τ
  boxMax : τ

variable {α τ : Type}

/-- The content of the files when the event happens (`imread(self.path_files[i])`). -/
abbrev Disk (α : Type) := Nat → Except PyErr (Img α)

/-- imviewer.py:103-120: the start, with the image `im` of the file `i`. -/
def View.init (T : Texts τ) (nb i : Nat) (im : Img α) : View α τ :=
  { nb := nb, ifile := some i, drawn := [⟨im, true, (0, 99 / 100 * im.hi)⟩], cur := 0, maps := [(i, 0)], title := i,
    changing := false, n := .int 1, clim := (0, 99 / 100 * im.hi), lastInc := false, boxMin := T.fmt 0,
    boxMax := T.fmt (99 / 100 * im.hi) }

/-- `self.maps[i]` -/
def mapsGet (i : Nat) : List (Nat × Nat) → Option Nat
  | [] => none
  | (j, k) :: rest => if j = i then some k else mapsGet i rest

/-- imviewer.py:195-210 `loadim`: a new image is added, in front of the other ones. -/
def loadim (disk : Disk α) (i : Nat) (s : View α τ) : Except PyErr (View α τ) :=
  match disk i with
  | .error e => .error e
  | .ok im =>
    .ok { s with drawn := s.drawn ++ [⟨im, true, s.clim⟩], cur := s.drawn.length, maps := (i, s.drawn.length) :: s.maps }

/-- Change of one of the images. -/
def modifyDrawn (k : Nat) (f : Drawn α → Drawn α) (l : List (Drawn α)) : List (Drawn α) :=
  match l[k]? with
  | none => l
  | some d => l.set k (f d)

/-- imviewer.py:215-239 `change_im`: the new state, and the exception if there is one (then `_image_changing` stays
`True`). -/
def changeIm (disk : Disk α) (s : View α τ) : View α τ × Option PyErr :=
  let s := { s with ifile := s.ifile.map (· % (s.nb : Int)) }           -- 216
  if s.changing then (s, none)                                          -- 217-218
  else
    match s.ifile with
    | none => ({ s with changing := true }, some .typeError)            -- 222: in `get_namefile`
    | some i =>
      let s := { s with changing := true }
      let old := s.cur
      match mapsGet i.toNat s.maps with
      | some k =>                                                       -- 227-230
        let drawn := modifyDrawn k (fun d => { d with clim := s.clim, visible := true }) s.drawn
        ({ s with cur := k, drawn := modifyDrawn old (fun d => { d with visible := false }) drawn, title := i.toNat,
                  changing := false }, none)
      | none =>                                                         -- 232
        match loadim disk i.toNat s with
        | .error e => (s, some e)
        | .ok s =>
          ({ s with drawn := modifyDrawn old (fun d => { d with visible := false }) s.drawn, title := i.toNat,
                    changing := false }, none)

/-- imviewer.py:248-262: `self.ifile += shift` followed by `change_im`. -/
def move (disk : Disk α) (shift : Value) (s : View α τ) : View α τ × Option PyErr :=
  match shift with
  | .int k => changeIm disk { s with ifile := s.ifile.map (· + k) }
  | .number _ => changeIm disk { s with ifile := none }
  | .other => (s, some .typeError)
  | .raises => (s, some .typeError)

/-- `-n` -/
def Value.neg : Value → Value
  | .int k => .int (-k)
  | .number q => .number (-q)
  | .other => .other
  | .raises => .raises

/-- The number which a value is. -/
def Value.num : Value → Option ℚ
  | .int k => some k
  | .number q => some q
  | _ => none

/-- imviewer.py:268-285 `_change_cmax`, `_change_cmin` when `_updating_clim` is `True` (called by `set_val`, line 301 or
300): the attribute `clim` is modified.  `which`: is it the maximum?  Simplification: a text which is not a number is
taken as an error of `safe_eval`. -/
def changeNested (T : Texts τ) (which : Bool) (t : τ) (clim : ℚ × ℚ) : ℚ × ℚ :=
  match (T.value t).num with
  | none => clim
  | some v => if which then (clim.1, v) else (v, clim.2)

/-- imviewer.py:287-303 `_update_clim`: the limits are given to the image, then the texts of the boxes are changed, which
calls `_change_cmin` and `_change_cmax` if they are different. -/
def updateClim [DecidableEq τ] (T : Texts τ) (s : View α τ) : View α τ :=
  let drawn := modifyDrawn s.cur (fun d => { d with clim := s.clim }) s.drawn
  let textMin := T.fmt s.clim.1
  let climA := if s.boxMin = textMin then s.clim else changeNested T false textMin s.clim
  let textMax := T.fmt climA.2
  let climB := if s.boxMax = textMax then climA else changeNested T true textMax climA
  { s with drawn := drawn, clim := climB, boxMin := textMin, boxMax := textMax }

/-- The events: the four buttons, the box "n = ", alt+s, "reload", "auto" and the two boxes of the limits. -/
inductive Ev (τ : Type) where
  | minusN
  | minusOne
  | plusOne
  | plusN
  | setN (t : τ)
  | switch
  | reload
  | auto
  | cmax (t : τ)
  | cmin (t : τ)

/-- The function called by an event. -/
def handle [DecidableEq τ] (T : Texts τ) (disk : Disk α) (s : View α τ) : Ev τ → View α τ
  | .minusN => (move disk s.n.neg s).1
  | .minusOne => (move disk (.int (-1)) s).1
  | .plusOne => (move disk (.int 1) s).1
  | .plusN => (move disk s.n s).1
  | .setN t =>                                                          -- 264-266
    match T.value t with
    | .raises => s
    | v => { s with n := v }
  | .switch =>                                                          -- 241-246
    match move disk (if s.lastInc then s.n.neg else s.n) s with
    | (s', none) => { s' with lastInc := !s.lastInc }
    | (s', some _) => s'
  | .reload =>                                                          -- 192-193
    match s.ifile with
    | none => s
    | some i =>
      match loadim disk i.toNat s with
      | .error _ => s
      | .ok s => s
  | .auto =>                                                            -- 186-190
    match s.ifile with
    | none => s
    | some i =>
      match disk i.toNat with
      | .error _ => s
      | .ok im => updateClim T { s with clim := (im.lo, 99 / 100 * im.hi) }
  | .cmax t =>                                                          -- 268-275
    match (T.value t).num with
    | none => { s with boxMax := t }
    | some v => if v = s.clim.2 then { s with boxMax := t } else updateClim T { s with clim := (s.clim.1, v), boxMax := t }
  | .cmin t =>                                                          -- 277-285
    match (T.value t).num with
    | none => { s with boxMin := t }
    | some v => if v = s.clim.1 then { s with boxMin := t } else updateClim T { s with clim := (v, s.clim.2), boxMin := t }

/-- A history: the events, with the content of the files when they happen. -/
def history [DecidableEq τ] (T : Texts τ) : List (Disk α × Ev τ) → View α τ → View α τ
  | [], s => s
  | (disk, ev) :: rest, s => history T rest (handle T disk s ev)

/-- What the user sees in the axes: the last image which has been added among those which are visible. -/
def View.shown (s : View α τ) : Option (Drawn α) := (s.drawn.filter (·.visible)).getLast?

/-! ## Vector fields -/

/-- A file of vectors: the positions and the components. -/
structure Vectors (β γ : Type) where
  positions : List β
  components : List γ
deriving DecidableEq

/-- A text in the box: `str(k)`, or another text, for which `int(text)` is given (`none`: `ValueError`). -/
inductive Text where
  | str (k : Int)
  | typed (k : Option Int)
deriving DecidableEq

/-- `int(text)` -/
def Text.int : Text → Option Int
  | .str k => some k
  | .typed k => k

/-- The attributes of `VectorFieldsViewer`: `index_file`, the text of the box, the index of the file in the title, and the
arrows. -/
structure PView (β γ : Type) where
  nb : Nat
  index : Int
  box : Text
  title : Nat
  arrows : Vectors β γ
deriving DecidableEq

variable {β γ : Type}

/-- The function `get_piv_data_from_path`, for the file with this index. -/
abbrev Load (β γ : Type) := Nat → Except PyErr (Vectors β γ)

/-- piv_viewer.py:96-176: the start, with the file `i`. -/
def PView.init (nb i : Nat) (v : Vectors β γ) : PView β γ := ⟨nb, i, .str i, i, v⟩

/-- piv_viewer.py:208-212 `_update_fig` -/
def updateFig (load : Load β γ) (s : PView β γ) : PView β γ :=
  match load s.index.toNat with
  | .error _ => s
  | .ok v =>
    if v.components.length = s.arrows.positions.length then
      { s with title := s.index.toNat, arrows := ⟨s.arrows.positions, v.components⟩ }
    else { s with title := s.index.toNat }                              -- `ValueError` in `set_UVC`

/-- The functions which call each other. -/
inductive Call where
  | submit
  | setText (k : Int)
  | setIndex (k : Int)

/-- piv_viewer.py:184-206 `_change_index_from_textbox` (with the text of the box), `_set_textbox_value`, `_set_index`.
`fuel`: maximal depth of the calls; `none`: it is reached. -/
def call (load : Load β γ) : Nat → Call → PView β γ → Option (PView β γ)
  | 0, _, _ => none
  | fuel + 1, .submit, s =>
    match s.box.int with
    | none => call load fuel (.setText s.index) s                       -- 187-189
    | some index =>
      let index := if index ≥ s.nb then (s.nb : Int) - 1 else if index < 0 then 0 else index
      match call load fuel (.setText index) s with                      -- 194
      | none => none
      | some s => call load fuel (.setIndex index) s                    -- 195
  | fuel + 1, .setText k, s =>                                          -- 197-199
    if s.box = .str k then some s else call load fuel .submit { s with box := .str k }
  | fuel + 1, .setIndex k, s =>                                         -- 201-206
    if k = s.index then some s
    else
      let s := { s with index := k % (s.nb : Int) }
      match call load fuel (.setText s.index) s with
      | none => none
      | some s => some (updateFig load s)

/-- The events: the two buttons and a text typed in the box. -/
inductive PEv where
  | minus
  | plus
  | type (t : Text)
deriving DecidableEq

/-- The function called by an event. -/
def phandle (load : Load β γ) (fuel : Nat) (s : PView β γ) : PEv → Option (PView β γ)
  | .minus => call load fuel (.setIndex (s.index - 1)) s
  | .plus => call load fuel (.setIndex (s.index + 1)) s
  | .type t => call load fuel .submit { s with box := t }

/-- A history. -/
def phistory (load : Load β γ) (fuel : Nat) : List PEv → PView β γ → Option (PView β γ)
  | [], s => some s
  | ev :: evs, s =>
    match phandle load fuel s ev with
    | none => none
    | some s => phistory load fuel evs s

/-- piv_viewer.py:34-64 `get_piv_data_from_path`: the name of the group which is read in the file of a multi-pass result
(the last of the sorted names which start with "piv"). -/
def viewedGroup (names : List (List Char)) : Except PyErr (List Char) :=
  match PivResults.maxName (names.filter (fun n => PivResults.startsWith n "piv".toList)) with
  | .error _ => .error .indexError
  | .ok n => .ok n

end Verif.Viewer
