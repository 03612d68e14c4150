import Verif.Model.FieldOps
import Verif.Model.Spectrum
import Verif.Model.Multipass

/-!
# Model of the series of vector fields and of their display

`/repo/src/fluidimage/postproc/vector_field.py`: 270-327 (dispatch of the operators of Python), 329-405 (`display`), 541-560
(`compute_spatial_fft`), 606-813 (`ArrayOfVectorFieldsOnGrid`), with `/repo/src/fluidimage/postproc/util.py` 80-185
(spectra).

The fields are objects in a heap (list of fields, an object is its index), so that a field which is in several series is
shared.  The elements of a series are fields.  Values are in any type `α` with the operations of the code.
-/

namespace Verif.FieldSeries
open Verif Verif.PivGrid Verif.VectorField Verif.FieldOps

/-- 606-617: the attributes of a series. -/
structure Series where
  refs : List Nat
  timestep : Option ℚ
  times : Option (List ℚ)
  unit : Option (List Char)
deriving DecidableEq

/-- The objects of a session. -/
structure World (α : Type) where
  fields : List (VField α)
  series : List Series

/-- A value used in an expression. -/
inductive Val (α : Type) where
  | number (c : α)
  | field (a : Nat)
  | series (s : Nat)

/-- The argument `fields` of the constructor. -/
inductive Init where
  | absent
  | list (refs : List Nat)
  | other

/-- A new series with the default attributes, 612-617. -/
def bare (refs : List Nat) : Series := ⟨refs, none, none, none⟩

/-- Add a series to the objects. -/
def alloc {α : Type} (w : World α) (s : Series) : World α × Nat := (⟨w.fields, w.series ++ [s]⟩, w.series.length)

/-- 607-617 -/
def create {α : Type} (w : World α) : Init → Except PyErr (World α × Nat)
  | .absent => .ok (alloc w (bare []))
  | .list refs => .ok (alloc w (bare refs))
  | .other => .error .typeError

/-- NumPy `np.linspace(start, stop, n)` -/
def linspace (start stop : ℚ) (n : Nat) : List ℚ :=
  (List.range n).map (fun (i : Nat) => start + (i : ℚ) * ((stop - start) / ((n : ℚ) - 1)))

/-- 619-624 -/
def setTimestep (s : Series) (dt : ℚ) (unit : List Char) : Series :=
  { s with timestep := some dt, unit := some unit, times := some (linspace 0 (dt * ((s.refs.length : ℚ) - 1)) s.refs.length) }

/-- 633-635 -/
def append (s : Series) (a : Nat) : Series := { s with refs := s.refs ++ [a] }

/-- 637-639 -/
def extend (s : Series) (l : List Nat) : Series := { s with refs := s.refs ++ l }

/-- Replace the series number `k`. -/
def putSeries {α : Type} (w : World α) (k : Nat) (s : Series) : World α := ⟨w.fields, w.series.set k s⟩

/-! ## Operations which give a new series -/

/-- The loops `for v in self: result.append(f(v))`: the new fields are put after the others; gives the heap and the
references. -/
def mapLoop {α : Type} (f : VField α → Except PyErr (VField α)) :
    List (VField α) → List Nat → Except PyErr (List (VField α) × List Nat)
  | heap, [] => .ok (heap, [])
  | heap, a :: l => match heap[a]? with
    | none => .error .nameError
    | some F => match f F with
      | .error e => .error e
      | .ok G => match mapLoop f (heap ++ [G]) l with
        | .error e => .error e
        | .ok (heap', r) => .ok (heap', heap.length :: r)

/-- 641-645, 653-675, 701-738: `result = type(self)()` then the loop; the result has the default attributes. -/
def mapSeries {α : Type} (f : VField α → Except PyErr (VField α)) (w : World α) (k : Nat) :
    Except PyErr (World α × Nat) :=
  match w.series[k]? with
  | none => .error .nameError
  | some s => match mapLoop f w.fields s.refs with
    | .error e => .error e
    | .ok (heap, refs) => .ok (alloc ⟨heap, w.series⟩ (bare refs))

/-- 701-706 -/
def medianSeries {α : Type} (med : List α → α) (s0 s1 niter : Nat) (valid : Bool) (w : World α) (k : Nat) :
    Except PyErr (World α × Nat) := mapSeries (fun F => .ok (medianFilter med F s0 s1 niter valid)) w k

/-- 708-717 -/
def gaussianSeries {α : Type} (wsum : List α → α) (truncate sigma0 sigma1 : ℚ) (niter : Nat) (valid : Bool) (w : World α)
    (k : Nat) : Except PyErr (World α × Nat) :=
  mapSeries (fun F => .ok (gaussianFilter wsum F truncate sigma0 sigma1 niter valid)) w k

/-- 719-724 (with indices) -/
def extractSeries {α : Type} (start0 stop0 start1 stop1 : Int) (w : World α) (k : Nat) : Except PyErr (World α × Nat) :=
  mapSeries (fun F => .ok (extract F start0 stop0 start1 stop1)) w k

/-- 726-731; `phys`: vector_field.py 509-510 raises `NotImplementedError`. -/
def truncateSeries {α : Type} (cut : Int) (phys : Bool) (w : World α) (k : Nat) : Except PyErr (World α × Nat) :=
  mapSeries (fun F => if phys then .error .notImplementedError else .ok (truncate F cut)) w k

/-- 733-738 -/
def squareSeries {α : Type} (cut : Int) (w : World α) (k : Nat) : Except PyErr (World α × Nat) :=
  mapSeries (fun F => .ok (extractSquare F cut true)) w k

/-! ## Operators -/

inductive Op where
  | add
  | sub
  | mul
  | div
deriving DecidableEq

variable {α : Type} [Add α] [Sub α] [Mul α] [Div α] [Zero α] [DecidableEq α]

/-- 270-280, 289-310, 315-327: the operation between a field and a number or a field. -/
def evalField (op : Op) (F : VField α) (x : Operand α) : Except PyErr (VField α) :=
  match op with
  | .add => add F x
  | .sub => sub F x
  | .mul => mul F x
  | .div => div F x

/-- The operation between two numbers (the division by zero is not modelled). -/
def evalNumber (op : Op) (a b : α) : α :=
  match op with
  | .add => a + b
  | .sub => a - b
  | .mul => a * b
  | .div => a / b

/-- The operand which a field sees: a number, or an object with attributes `vx`, `vy`, `vz`; a series does not have them
(`AttributeError`, 277, 296, 307, 321). -/
def operandOf (w : World α) : Val α → Except PyErr (Operand α)
  | .number c => .ok (.number c)
  | .field b => match w.fields[b]? with
    | none => .error .nameError
    | some G => .ok (.field G)
  | .series _ => .error .attributeError

/-- Method of a field: `F.__add__(v)`, … -/
def fieldOp (w : World α) (op : Op) (a : Nat) (v : Val α) : Except PyErr (World α × Val α) :=
  match w.fields[a]? with
  | none => .error .nameError
  | some F => match operandOf w v with
    | .error e => .error e
    | .ok x => match evalField op F x with
      | .error e => .error e
      | .ok G => .ok (⟨w.fields ++ [G], w.series⟩, .field w.fields.length)

/-- The function applied to each field by `series + v`: the operand is evaluated by each field. -/
def each (op : Op) (x : Except PyErr (Operand α)) (F : VField α) : Except PyErr (VField α) :=
  match x with
  | .error e => .error e
  | .ok x => evalField op F x

/-- Method of a series: 641-645, 653-675. -/
def seriesOp (w : World α) (op : Op) (k : Nat) (v : Val α) : Except PyErr (World α × Val α) :=
  match mapSeries (each op (operandOf w v)) w k with
  | .error e => .error e
  | .ok (w', k') => .ok (w', .series k')

/-- The reflected methods, called when the left operand is a number: 282-287 and 647-651 (`__radd__`: `self` if the number
is zero), 312-313 and 665-669 (`__rmul__`); there is no `__rsub__` and no `__rtruediv__` (`TypeError`). -/
def reflected (w : World α) (op : Op) (c : α) (v : Val α) (method : Op → Except PyErr (World α × Val α)) :
    Except PyErr (World α × Val α) :=
  match op with
  | .add => if c = 0 then .ok (w, v) else method .add
  | .mul => method .mul
  | .sub => .error .typeError
  | .div => .error .typeError

/-- `l op r` in Python. -/
def binop (w : World α) (op : Op) : Val α → Val α → Except PyErr (World α × Val α)
  | .number a, .number b => .ok (w, .number (evalNumber op a b))
  | .field a, v => fieldOp w op a v
  | .series k, v => seriesOp w op k v
  | .number c, .field a => reflected w op c (.field a) (fun op => fieldOp w op a (.number c))
  | .number c, .series k => reflected w op c (.series k) (fun op => seriesOp w op k (.number c))

/-- Built-in `sum` of Python, with the accumulated value. -/
def sumVals (w : World α) (acc : Val α) : List (Val α) → Except PyErr (World α × Val α)
  | [] => .ok (w, acc)
  | v :: l => match binop w .add acc v with
    | .error e => .error e
    | .ok (w', acc') => sumVals w' acc' l

/-- `sum(l)` -/
def pySum (w : World α) (l : List (Val α)) : Except PyErr (World α × Val α) := sumVals w (.number 0) l

omit [Add α] [Sub α] [Mul α] [Div α] [Zero α] [DecidableEq α]

/-! ## Indexing -/

/-- A `slice` of Python. -/
structure Slice where
  start : Option Int
  stop : Option Int
  step : Option Int
deriving DecidableEq

/-- CPython `PySlice_AdjustIndices`: one bound, for `lo ≤ i ≤ hi`. -/
def adjust (n : Nat) (lo hi i : Int) : Int :=
  let i := if i < 0 then i + n else i
  if i < lo then lo else if i > hi then hi else i

/-- A bound of a slice, `None` giving a default value. -/
def bound (n : Nat) (lo hi default : Int) : Option Int → Int
  | none => default
  | some i => adjust n lo hi i

/-- The indices `a`, `a + step`, … before `b` (`step` is positive, or negative with `b < a`). -/
def walk (a b step : Int) : List Nat :=
  let len : Nat := if step > 0 then (if a < b then ((b - a - 1) / step + 1).toNat else 0)
    else (if b < a then ((a - b - 1) / (-step) + 1).toNat else 0)
  (List.range len).map (fun (m : Nat) => (a + m * step).toNat)

/-- The indices selected by a slice in a sequence of length `n`. -/
def Slice.indices (s : Slice) (n : Nat) : Except PyErr (List Nat) :=
  let step := s.step.getD 1
  if step = 0 then .error .valueError
  else if step > 0 then .ok (walk (bound n 0 n 0 s.start) (bound n 0 n n s.stop) step)
  else .ok (walk (bound n (-1) (n - 1) (n - 1) s.start) (bound n (-1) (n - 1) (-1) s.stop) step)

/-- The elements selected by a slice. -/
def Slice.of {β : Type} (s : Slice) (l : List β) : Except PyErr (List β) :=
  match s.indices l.length with
  | .error e => .error e
  | .ok is => .ok (is.filterMap (fun i => l[i]?))

/-- 680-684 with an integer: the field itself. -/
def getInt (s : Series) (i : Int) : Except PyErr Nat := Multipass.pyIndex s.refs i

/-- 680-684 with a slice: a new series with the same fields (and the default attributes). -/
def getSlice (w : World α) (k : Nat) (sl : Slice) : Except PyErr (World α × Nat) :=
  match w.series[k]? with
  | none => .error .nameError
  | some s => match sl.of s.refs with
    | .error e => .error e
    | .ok refs => .ok (alloc w (bare refs))

/-- The position in the list for an index of Python. -/
def position (n : Nat) (i : Int) : Except PyErr Nat :=
  let j := if i < 0 then i + n else i
  if j < 0 ∨ j ≥ n then .error .indexError else .ok j.toNat

/-- 686-687 with an integer -/
def setInt (s : Series) (i : Int) (a : Nat) : Except PyErr Series :=
  match position s.refs.length i with
  | .error e => .error e
  | .ok j => .ok { s with refs := s.refs.set j a }

/-- 689-690 with an integer -/
def delInt (s : Series) (i : Int) : Except PyErr Series :=
  match position s.refs.length i with
  | .error e => .error e
  | .ok j => .ok { s with refs := s.refs.eraseIdx j }

/-! ## Operation in place -/

/-- 809-812 `regularize_grid`: the fields are changed one after the other; at the first error the next ones are left. -/
def regularizeLoop (heap : List (VField α)) : List Nat → List (VField α) × Option PyErr
  | [] => (heap, none)
  | a :: l => match heap[a]? with
    | none => (heap, some .nameError)
    | some F => match regularizeGrid F with
      | .error e => (heap, some e)
      | .ok G => regularizeLoop (heap.set a G) l

/-! ## Spectra -/

/-- util.py 80-124 `compute_1dspectrum` along the times: `n` times with the step `dt`, `m` values; 117-119. -/
noncomputable def coefficients (n m : ℕ) (dt : ℝ) (s : ℕ → ℂ) (i : ℕ) : ℂ :=
  ((dt / Spectrum.lx n dt : ℝ) : ℂ) * Dft.fft m s (Dft.shiftIdx m i)

/-- What `compute_temporal_fft` returns (without the spectra `psdU` and `psdV`, which are `0.5 / dk * |.|²` of the
coefficients): the number of coefficients, of pulsations, the coefficients at the grid point `(j, i)` and the pulsations. -/
structure Temporal where
  ncoef : ℕ
  nomega : ℕ
  vx : ℕ → ℕ → ℕ → ℂ
  vy : ℕ → ℕ → ℕ → ℂ
  omega : ℕ → ℝ

/-- 749-751, 755-756: all the arrays have the shape of the first one (the broadcasting of arrays with dimensions of length
1 is not modelled). -/
def sameShapes (ny nx : Nat) (l : List (VField ℚ)) (comp : VField ℚ → Img ℚ) : Bool :=
  l.all (fun F => decide ((comp F).ny = ny ∧ (comp F).nx = nx))

/-- 740-761 `compute_temporal_fft` for the fields `l` of the series.  One time: `x[1]` in util.py 113 raises
`IndexError`. -/
noncomputable def temporalFft (times : Option (List ℚ)) (l : List (VField ℚ)) : Except PyErr Temporal :=
  match times with
  | none => .error .runtimeError
  | some ts => match l with
    | [] => .error .indexError
    | F :: l' =>
      if sameShapes F.y.length F.x.length (F :: l') VField.vx && sameShapes F.y.length F.x.length (F :: l') VField.vy then
        match ts[1]?, ts[0]? with
        | some t1, some t0 =>
          let dt : ℝ := ((t1 - t0 : ℚ) : ℝ)
          .ok ⟨l'.length + 1, ts.length,
            fun k j i => coefficients ts.length (l'.length + 1) dt
              (fun t => ((((F :: l')[t]?).map (fun G => (G.vx.get j i : ℂ))).getD 0)) k,
            fun k j i => coefficients ts.length (l'.length + 1) dt
              (fun t => ((((F :: l')[t]?).map (fun G => (G.vy.get j i : ℂ))).getD 0)) k,
            fun k => Spectrum.omega ts.length dt k⟩
        | _, _ => .error .indexError
      else .error .valueError

/-! ## Display -/

/-- The argument `step` of the method `display` of a field. -/
inductive Step where
  | absent
  | int (k : Int)
  | slices (s0 s1 : Slice)

/-- 347-353: the two slices; a step which is not an integer gives slices which cannot be used (`TypeError` at 367). -/
def skipOf (ny : Nat) (step : Step) (skip : Option (Slice × Slice)) : Except PyErr (Except PyErr (Slice × Slice)) :=
  match skip with
  | none => match step with
    | .absent =>
      let s : Slice := ⟨none, none, some ((max (ny / 25) 1 : Nat) : Int)⟩
      .ok (.ok (s, s))
    | .int k => .ok (.ok (⟨none, none, some k⟩, ⟨none, none, some k⟩))
    | .slices _ _ => .ok (.error .typeError)
  | some p => match step with
    | .absent => .ok (.ok p)
    | _ => .error .valueError

/-- One arrow. -/
structure Arrow (α : Type) where
  x : ℚ
  y : ℚ
  u : α
  v : α

/-- The array `im[skip]` for the lists of the selected indices, row after row. -/
def ravel2 (im : Img α) (rows cols : List Nat) : List α := rows.flatMap (fun j => cols.map (fun i => im.get j i))

/-- Matplotlib `Axes.quiver(X, Y, U, V)`: the coordinates are meshed when their lengths are those of the columns and of
the rows of `U`; otherwise there must be as many of them as values. -/
def quiver (X Y : List ℚ) (nr nc : Nat) (U V : List α) : Except PyErr (List (Arrow α)) :=
  if X.length = nc ∧ Y.length = nr then
    .ok (List.zipWith (fun p q => ⟨p.1, p.2, q.1, q.2⟩) (Y.flatMap (fun y => X.map (fun x => (x, y)))) (U.zip V))
  else if X.length ≠ Y.length then .error .valueError
  else if U.length ≠ X.length then .error .valueError
  else .ok (List.zipWith (fun p q => ⟨p.1, p.2, q.1, q.2⟩) (X.zip Y) (U.zip V))

/-- 329-405 `display` of a field: the arrows which are drawn.  367-369: `self.x[skip[0]]`, `self.y[skip[1]]`, and
`self.vx[skip]` takes the rows with `skip[0]`. -/
def display (F : VField α) (background : Bool) (step : Step) (skip : Option (Slice × Slice)) :
    Except PyErr (List (Arrow α)) :=
  match skipOf F.y.length step skip with
  | .error e => .error e
  | .ok sk =>
    if background then .error .notImplementedError
    else match sk with
      | .error e => .error e
      | .ok (s0, s1) => match s0.of F.x with
        | .error e => .error e
        | .ok X => match s1.of F.y with
          | .error e => .error e
          | .ok Y => match s0.indices F.vx.ny with
            | .error e => .error e
            | .ok rows => match s1.indices F.vx.nx with
              | .error e => .error e
              | .ok cols => quiver X Y rows.length cols.length (ravel2 F.vx rows cols) (ravel2 F.vy rows cols)

/-- What is in a figure: positions of the arrows, index of the current field, values of the colours and of the arrows in
the objects of matplotlib, and the same on the screen (after the last drawing). -/
structure Fig (α : Type) where
  positions : List (ℚ × ℚ)
  ncolors : Nat
  current : Nat
  colors : List α
  arrows : List (α × α)
  screen : List α × List (α × α)

/-- All the values of an array. -/
def flat (im : Img α) : List α := ravel2 im (List.range im.ny) (List.range im.nx)

/-- 780-790 `display` of a series: 788, the argument `skip` is given as the fourth argument of the method of the field,
which is `step`.  `norm` is `compute_norm` (537-539).  The axes are new. -/
def displaySeries (norm : VField α → Img α) (l : List (VField α)) (ind : Int) (background : Bool) (skip : Step) :
    Except PyErr (Fig α) :=
  match position l.length ind with
  | .error e => .error e
  | .ok p => match l[p]? with
    | none => .error .indexError
    | some F => match display F background skip none with
      | .error e => .error e
      | .ok arrows =>
        let colors := flat (norm F)
        let uv := arrows.map (fun a => (a.u, a.v))
        .ok ⟨arrows.map (fun a => (a.x, a.y)), colors.length, p, colors, uv, (colors, uv)⟩

/-- 799-802: `vx[skip]` with the argument `skip` of the series: everything with `None`, one row with an integer. -/
def scrollValues (im : Img α) : Step → Except PyErr (List α)
  | .absent => .ok (flat im)
  | .int k => match position im.ny k with
    | .error e => .error e
    | .ok j => .ok (ravel2 im [j] (List.range im.nx))
  | .slices s0 s1 => match s0.indices im.ny with
    | .error e => .error e
    | .ok rows => match s1.indices im.nx with
      | .error e => .error e
      | .ok cols => .ok (ravel2 im rows cols)

/-- 793-796: the next index. -/
def nextIndex (n current : Nat) (up : Bool) : Nat :=
  (((current : Int) + (if up then 1 else -1)) % n).toNat

/-- 803: `self.times[self.currentind]`: `None` is not subscriptable (`TypeError`). -/
def timeText (times : Option (List ℚ)) (i : Nat) : Except PyErr ℚ :=
  match times with
  | none => .error .typeError
  | some ts => match ts[i]? with
    | none => .error .indexError
    | some t => .ok t

/-- 792-804 `onscroll`.  The figure after the event, the time which is printed, or the exception. -/
def onscroll (norm : VField α → Img α) (l : List (VField α)) (times : Option (List ℚ)) (skip : Step) (up : Bool)
    (fig : Fig α) : Fig α × Except PyErr ℚ :=
  if l.length = 0 then (fig, .error .zeroDivisionError)
  else
    let c := nextIndex l.length fig.current up
    let fig1 := { fig with current := c }
    match l[c]? with
    | none => (fig1, .error .indexError)
    | some F =>
      if (flat (norm F)).length ≠ fig.ncolors then (fig1, .error .valueError)
      else
        let fig2 := { fig1 with colors := flat (norm F) }
        match scrollValues F.vx skip with
        | .error e => (fig2, .error e)
        | .ok u => match scrollValues F.vy skip with
          | .error e => (fig2, .error e)
          | .ok v =>
            if u.length ≠ fig.positions.length ∨ v.length ≠ fig.positions.length then (fig2, .error .valueError)
            else
              let fig3 := { fig2 with arrows := u.zip v }
              match timeText times c with
              | .error e => (fig3, .error e)
              | .ok t => ({ fig3 with screen := (fig3.colors, fig3.arrows) }, .ok t)

/-- Several events; the exceptions are reported by matplotlib and the figure stays. -/
def scrolls (norm : VField α → Img α) (l : List (VField α)) (times : Option (List ℚ)) (skip : Step) (fig : Fig α) :
    List Bool → Fig α
  | [] => fig
  | up :: ups => scrolls norm l times skip (onscroll norm l times skip up fig).1 ups

end Verif.FieldSeries
