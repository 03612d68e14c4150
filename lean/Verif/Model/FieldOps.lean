import Verif.Model.VectorField

/-!
# Model of the derivatives, filters and files of the vector fields

`/repo/src/fluidimage/postproc/vector_field.py`: 177-265 (`save`, `from_file` for the files made by `save`), 408-467
(`median_filter`, `gaussian_filter`), 560-578 (`compute_rotz`, `compute_divh`), 752-770
(`apply_function_to_spatiotemp_data`), and `/repo/src/fluidimage/postproc/util.py`: 70-77.

The values are exact (rationals for the derivatives, any type for the rest).
-/

namespace Verif.FieldOps
open Verif Verif.PivGrid Verif.GridFinal Verif.VectorField

/-! ## Derivatives -/

/-- NumPy `np.gradient(f, h, edge_order=eo)` for `n` values: element `i` (code of NumPy; `h` is not zero). -/
def gradAt (eo n : Nat) (h : ℚ) (f : Nat → ℚ) (i : Nat) : ℚ :=
  if i = 0 then
    if eo = 1 then (f 1 - f 0) / h else -3 / 2 / h * f 0 + 2 / h * f 1 + -1 / 2 / h * f 2
  else if i = n - 1 then
    if eo = 1 then (f (n - 1) - f (n - 2)) / h
    else 1 / 2 / h * f (n - 3) + -2 / h * f (n - 2) + 3 / 2 / h * f (n - 1)
  else (f (i + 1) - f (i - 1)) / (2 * h)

/-- `np.gradient(im, h, axis=1, edge_order=eo)` -/
def gradX (eo : Nat) (h : ℚ) (im : Img ℚ) : Except PyErr (Img ℚ) :=
  if 2 < eo then .error .valueError
  else if im.nx < eo + 1 then .error .valueError
  else .ok ⟨im.ny, im.nx, fun j i => gradAt eo im.nx h (fun k => im.get j k) i⟩

/-- `np.gradient(im, h, axis=0, edge_order=eo)` -/
def gradY (eo : Nat) (h : ℚ) (im : Img ℚ) : Except PyErr (Img ℚ) :=
  if 2 < eo then .error .valueError
  else if im.ny < eo + 1 then .error .valueError
  else .ok ⟨im.ny, im.nx, fun j i => gradAt eo im.ny h (fun k => im.get k i) j⟩

/-- 168-170: the attributes `dx`, `dy`, set when the grid is regular. -/
def spacing (x : List ℚ) : Except PyErr ℚ :=
  match at' x 1 with
  | .error e => .error e
  | .ok x1 => match at' x 0 with
    | .error e => .error e
    | .ok x0 => .ok (x1 - x0)

/-- 560-568 `compute_rotz` and util.py 70-72; `dx` and `dy` are the attributes of the field. -/
def computeRotz (F : VField ℚ) (dx dy : ℚ) (eo : Nat) : Except PyErr (Img ℚ) :=
  if F.regular = false then .error .notImplementedError
  else match gradY eo dy F.vx with
    | .error e => .error e
    | .ok dvxdy => match gradX eo dx F.vy with
      | .error e => .error e
      | .ok dvydx => zipImg (fun a b => a - b) dvydx dvxdy

/-- 570-578 `compute_divh` and util.py 75-77. -/
def computeDivh (F : VField ℚ) (dx dy : ℚ) (eo : Nat) : Except PyErr (Img ℚ) :=
  if F.regular = false then .error .notImplementedError
  else match gradX eo dx F.vx with
    | .error e => .error e
    | .ok dvxdx => match gradY eo dy F.vy with
      | .error e => .error e
      | .ok dvydy => zipImg (fun a b => a + b) dvxdx dvydy

/-! ## Filters -/

/-- SciPy, mode `reflect` (`d c b a | a b c d | d c b a`): the index which is read for the index `k`, with `n > 0`. -/
def reflect (n : Nat) (k : Int) : Nat :=
  let r := (k % (2 * n : Nat)).toNat
  if r < n then r else 2 * n - 1 - r

/-- A filter of SciPy which depends on the values in a window around each pixel: `before0` lines before, `after0` lines
after, and the same for the columns.  `agg` is the function of the list of these values. -/
structure Window (α : Type) where
  before0 : Nat
  after0 : Nat
  before1 : Nat
  after1 : Nat
  agg : List α → α

/-- The offsets of a window, lines one after the other. -/
def Window.offsets {α : Type} (w : Window α) : List (Int × Int) :=
  (List.range (w.before0 + w.after0 + 1)).flatMap fun (a : Nat) =>
    (List.range (w.before1 + w.after1 + 1)).map fun (b : Nat) => ((a : Int) - w.before0, (b : Int) - w.before1)

/-- One filtering of an array. -/
def Window.apply {α : Type} (w : Window α) (im : Img α) : Img α :=
  ⟨im.ny, im.nx, fun j i => w.agg (w.offsets.map fun d => im.get (reflect im.ny (j + d.1)) (reflect im.nx (i + d.2)))⟩

/-- 413-416, 442-445: `niter` filterings. -/
def Window.iterate {α : Type} (w : Window α) : Nat → Img α → Img α
  | 0, im => im
  | n + 1, im => w.iterate n (w.apply im)

/-- The window of `median_filter(f, [s0, s1])` of SciPy (sizes at least 1). -/
def medianWindow {α : Type} (med : List α → α) (s0 s1 : Nat) : Window α :=
  ⟨s0 / 2, s0 - 1 - s0 / 2, s1 / 2, s1 - 1 - s1 / 2, med⟩

/-- 422-426: `ret.vz` of `median_filter` -/
def filterVz {α : Type} (w : Window α) (niter : Nat) : Vz α → Vz α
  | .num v => .num v
  | .arr im => .arr (w.iterate niter im)

/-- 408-436 `median_filter`; 429: `mf = floor(max(size) / 2)`. -/
def medianFilter {α : Type} (med : List α → α) (F : VField α) (s0 s1 niter : Nat) (valid : Bool) : VField α :=
  let w := medianWindow med s0 s1
  let ret : VField α := { F with
    vx := w.iterate niter F.vx
    vy := w.iterate niter F.vy
    vz := filterVz w niter F.vz }
  let mf : Nat := max s0 s1 / 2
  if valid then extract ret mf ((F.vx.ny : Int) - mf) mf ((F.vx.nx : Int) - mf) else ret

/-- 458 and SciPy: radius of a Gaussian filter, `int(truncate * sigma + 0.5)` (not negative). -/
def gaussianRadius (truncate sigma : ℚ) : Nat := ⌊truncate * sigma + 1 / 2⌋.toNat

/-- The window of `gaussian_filter(f, [sigma0, sigma1], truncate=truncate)`; `wsum` is the weighted sum. -/
def gaussianWindow {α : Type} (wsum : List α → α) (truncate sigma0 sigma1 : ℚ) : Window α :=
  ⟨gaussianRadius truncate sigma0, gaussianRadius truncate sigma0, gaussianRadius truncate sigma1,
    gaussianRadius truncate sigma1, wsum⟩

/-- 438-467 `gaussian_filter`: 451-453, `vz` is not filtered; 456, `mf = floor((2 * radius + 1) / 2)`. -/
def gaussianFilter {α : Type} (wsum : List α → α) (F : VField α) (truncate sigma0 sigma1 : ℚ) (niter : Nat) (valid : Bool) :
    VField α :=
  let w := gaussianWindow wsum truncate sigma0 sigma1
  let ret : VField α := { F with
    vx := w.iterate niter F.vx
    vy := w.iterate niter F.vy }
  let mf : Nat := (2 * gaussianRadius truncate (max sigma0 sigma1) + 1) / 2
  if valid then extract ret mf ((F.vx.ny : Int) - mf) mf ((F.vx.nx : Int) - mf) else ret

/-! ## Functions applied to the data of all the times

The array `fields` given to the function is one buffer which is used twice. -/

/-- What a function called with an array does: it leaves `after` in the array; it returns a new array, or the array (or a
view of it). -/
structure Called (β : Type) where
  after : β
  returned : Option β

/-- What a reference to a returned array gives when the content of the buffer is `buffer`. -/
def deref {β : Type} (buffer : β) : Option β → β
  | some b => b
  | none => buffer

/-- 757-758, 760-761: the component of each field is copied in the buffer, one array per time. -/
def fillBuffer {α : Type} (comp : VField α → Img α) (L : List (VField α)) : List (Img α) := L.map comp

/-- 764-766: `v.vx = retvx[it]`, `v.vy = retvy[it]` for the copies of the fields. -/
def setComponents {α : Type} : List (VField α) → List (Img α) → List (Img α) → Except PyErr (List (VField α))
  | [], _, _ => .ok []
  | F :: L, a :: A, b :: B => match setComponents L A B with
    | .error e => .error e
    | .ok R => .ok ({ F with vx := a, vy := b } :: R)
  | _ :: _, _, _ => .error .indexError

/-- 751-767 `apply_function_to_spatiotemp_data` for fields of the same shape.  The result of `func` is the list of the
arrays of its first axis. -/
def applySpatiotemp {α : Type} (func : List (Img α) → Called (List (Img α))) (L : List (VField α)) :
    Except PyErr (List (VField α)) :=
  match L with
  | [] => .error .indexError
  | F :: l =>
    let c0 := func (fillBuffer (fun G => G.vx) (F :: l))
    let c1 := func (fillBuffer (fun G => G.vy) (F :: l))
    setComponents (F :: l) (deref c1.after c0.returned) (deref c1.after c1.returned)

/-! ## Files -/

/-- A field with its parameters.  `zeroD`: `vz` is an array of dimension zero instead of a number. -/
structure Obj (α : Type) where
  F : VField α
  zeroD : Bool
  params : Option (List Char)

/-- A dataset of a file. -/
inductive Ds (α : Type) where
  | scalar (v : α)
  | vec (l : List ℚ)
  | arr (im : Img α)
  | coord (q : ℚ)
  | surf (im : Img ℚ)

structure H5 (α : Type) where
  ds : List (String × Ds α)
  attrs : Option (Option (List Char))
  params : Option (List Char)

/-- The dataset of `vz`: h5py saves a number as a dataset of dimension zero. -/
def vzDs {α : Type} : Vz α → Ds α
  | .num v => .scalar v
  | .arr im => .arr im

/-- 177-196 `save`: datasets `vx`, `vy`, `vz`, `x`, `y`, `z` in this order, then the attributes (names, units, history) and
the parameters.  `create_dataset(.., data=None)` raises `TypeError`.  The result is the file and the exception. -/
def save {α : Type} (o : Obj α) (params : Option (List Char)) : H5 α × Option PyErr :=
  let ds := [("vx", Ds.arr o.F.vx), ("vy", Ds.arr o.F.vy), ("vz", vzDs o.F.vz), ("x", Ds.vec o.F.x), ("y", Ds.vec o.F.y)]
  let params := match params with
    | some p => some p
    | none => o.params
  match o.F.z with
  | .absent => (⟨ds, none, none⟩, some .typeError)
  | .num q => (⟨ds ++ [("z", .coord q)], some o.F.labels, params⟩, none)
  | .surf im => (⟨ds ++ [("z", .surf im)], some o.F.labels, params⟩, none)

/-- 248-250: `kwargs[attr_name] = file[attr_name][...]` -/
def getDs {α : Type} (file : H5 α) (name : String) : Except PyErr (Ds α) :=
  match file.ds.lookup name with
  | none => .error .keyError
  | some d => .ok d

/-- The array of a component. -/
def asArr {α : Type} : Ds α → Except PyErr (Img α)
  | .arr im => .ok im
  | _ => .error .typeError

/-- The array of a coordinate. -/
def asVec {α : Type} : Ds α → Except PyErr (List ℚ)
  | .vec l => .ok l
  | _ => .error .typeError

/-- 108-109: an array of dimension zero is converted to a number for `z` ... -/
def asZ {α : Type} : Ds α → Except PyErr Zc
  | .coord q => .ok (.num q)
  | .surf im => .ok (.surf im)
  | _ => .error .typeError

/-- ... but not for `vz`. -/
def asVz {α : Type} : Ds α → Except PyErr (Vz α × Bool)
  | .scalar v => .ok (.num v, true)
  | .arr im => .ok (.arr im, false)
  | _ => .error .typeError

/-- 244-265 `from_file` for a file made by `save` of the same class. -/
def fromFile {α : Type} (file : H5 α) : Except PyErr (Obj α) :=
  match (getDs file "vx").bind asArr with
  | .error e => .error e
  | .ok vx => match (getDs file "vy").bind asArr with
    | .error e => .error e
    | .ok vy => match (getDs file "vz").bind asVz with
      | .error e => .error e
      | .ok (vz, zeroD) => match (getDs file "x").bind asVec with
        | .error e => .error e
        | .ok x => match (getDs file "y").bind asVec with
          | .error e => .error e
          | .ok y => match (getDs file "z").bind asZ with
            | .error e => .error e
            | .ok z => match file.attrs with
              | none => .error .keyError
              | some labels => match mkField x y z vx vy vz labels with
                | .error e => .error e
                | .ok F => .ok ⟨F, zeroD, file.params⟩

/-- 422-426 for a field: SciPy raises `RuntimeError` for an array of dimension zero and two sizes. -/
def medianObj {α : Type} (med : List α → α) (o : Obj α) (s0 s1 niter : Nat) (valid : Bool) : Except PyErr (VField α) :=
  if o.zeroD ∧ 0 < niter then .error .runtimeError else .ok (medianFilter med o.F s0 s1 niter valid)

/-- 580-603 for a field: `isinstance(self.vz, Number)` is false for an array of dimension zero. -/
def regularizeObj {α : Type} (o : Obj α) : Except PyErr (VField α) :=
  if o.F.regular then .ok o.F else if o.zeroD then .error .notImplementedError else regularizeGrid o.F

end Verif.FieldOps
