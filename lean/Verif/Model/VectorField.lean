import Verif.Model.GridFinal

/-!
# Model of the vector fields on a grid

`/repo/src/fluidimage/postproc/vector_field.py`: 35-37 (`_is_regular`), 84-170 (constructor), 270-327 (operations),
469-535 (`extract`, `truncate`, `extract_square`), 580-603 (`regularize_grid`), 626-631 (`compute_time_average`).

The components are 2D arrays of values in any type `α` with the operations of the code (so the theorems cover floats
with their infinities and NaN).  Coordinates are rationals.  Fields with three dimensions are not modelled.  The names,
units and history are one value `labels` (`none`: the default ones).
-/

namespace Verif.VectorField
open Verif Verif.PivGrid Verif.GridFinal

/-- NumPy `np.fliplr` -/
def fliplr {α : Type} (im : Img α) : Img α := ⟨im.ny, im.nx, fun j i => im.get j (im.nx - 1 - i)⟩

/-- NumPy `np.flipud` -/
def flipud {α : Type} (im : Img α) : Img α := ⟨im.ny, im.nx, fun j i => im.get (im.ny - 1 - j) i⟩

/-- `a.shape == b.shape` -/
def sameShape {α β : Type} (a : Img α) (b : Img β) : Bool := decide (a.ny = b.ny ∧ a.nx = b.nx)

/-- The component `vz`: a number or an array. -/
inductive Vz (α : Type) where
  | num (v : α)
  | arr (im : Img α)

/-- The coordinate `z`: absent, a number or a 2D array. -/
inductive Zc where
  | absent
  | num (v : ℚ)
  | surf (im : Img ℚ)

structure VField (α : Type) where
  x : List ℚ
  y : List ℚ
  z : Zc
  vx : Img α
  vy : Img α
  vz : Vz α
  labels : Option (List Char)
  regular : Bool

/-- NumPy `np.allclose(d, dx)` for one element: absolute tolerance `1e-8`, relative tolerance `1e-5`. -/
def close (d dx : ℚ) : Bool := decide (|d - dx| ≤ 1 / 100000000 + 1 / 100000 * |dx|)

/-- NumPy `np.diff` -/
def diff : List ℚ → List ℚ
  | a :: b :: l => (b - a) :: diff (b :: l)
  | _ => []

/-- 35-37 `_is_regular` -/
def isRegular (x : List ℚ) : Except PyErr Bool :=
  match at' x 1 with
  | .error e => .error e
  | .ok x1 => match at' x 0 with
    | .error e => .error e
    | .ok x0 => .ok ((diff x).all (fun d => close d (x1 - x0)))

/-- 162-167: the part about `z`.  A 2D `z` with another shape than `vx` is treated as not regular. -/
def zRegular {α : Type} (z : Zc) (vx : Img α) : Bool :=
  match z with
  | .absent => true
  | .num _ => true
  | .surf im => sameShape im vx

/-- 160-167 `_init_is_grid_regular` (the attributes `dx`, `dy` of 169-170 are the differences of the coordinates). -/
def gridRegular {α : Type} (x y : List ℚ) (z : Zc) (vx : Img α) : Except PyErr Bool :=
  match isRegular x with
  | .error e => .error e
  | .ok false => .ok false
  | .ok true => match isRegular y with
    | .error e => .error e
    | .ok ry => .ok (ry && zRegular z vx)

/-- 141-142, 151-152: flip of `vz` (an array with another shape than `vx` is left as it is). -/
def flipVz {α : Type} (flip : Img α → Img α) (vx : Img α) : Vz α → Vz α
  | .num v => .num v
  | .arr im => if sameShape im vx then .arr (flip im) else .arr im

/-- 143-146, 153-156: flip of `z`. -/
def flipZ {α : Type} (flip : Img ℚ → Img ℚ) (vx : Img α) : Zc → Zc
  | .absent => .absent
  | .num v => .num v
  | .surf im => if sameShape vx im then .surf (flip im) else .surf im

/-- 135-136: is the coordinate descending? -/
def descending (x : List ℚ) : Except PyErr Bool :=
  match at' x 1 with
  | .error e => .error e
  | .ok x1 => match at' x 0 with
    | .error e => .error e
    | .ok x0 => .ok (decide (x1 - x0 < 0))

/-- 137-146 -/
def flipX {α : Type} (F : VField α) : VField α :=
  { F with x := F.x.reverse, vx := fliplr F.vx, vy := fliplr F.vy, vz := flipVz fliplr F.vx F.vz,
           z := flipZ fliplr F.vx F.z }

/-- 147-156 -/
def flipY {α : Type} (F : VField α) : VField α :=
  { F with y := F.y.reverse, vx := flipud F.vx, vy := flipud F.vy, vz := flipVz flipud F.vx F.vz,
           z := flipZ flipud F.vx F.z }

/-- 84-158 constructor of `VectorFieldOnGrid` -/
def mkField {α : Type} (x y : List ℚ) (z : Zc) (vx vy : Img α) (vz : Vz α) (labels : Option (List Char)) :
    Except PyErr (VField α) :=
  match descending x with
  | .error e => .error e
  | .ok fx => match descending y with
    | .error e => .error e
    | .ok fy =>
      let F : VField α := ⟨x, y, z, vx, vy, vz, labels, false⟩
      let F := if fx then flipX F else F
      let F := if fy then flipY F else F
      match gridRegular F.x F.y F.z F.vx with
      | .error e => .error e
      | .ok r => .ok { F with regular := r }

/-! ## Operations -/

/-- Elementwise operation on arrays.  Arrays with different shapes: `ValueError` (the broadcasting of dimensions of length
1 is not modelled). -/
def zipImg {α : Type} (f : α → α → α) (a b : Img α) : Except PyErr (Img α) :=
  if sameShape a b then .ok ⟨a.ny, a.nx, fun j i => f (a.get j i) (b.get j i)⟩ else .error .valueError

/-- Operation on the arrays with a number. -/
def mapImg {α : Type} (f : α → α) (a : Img α) : Img α := ⟨a.ny, a.nx, fun j i => f (a.get j i)⟩

def zipVz {α : Type} (f : α → α → α) : Vz α → Vz α → Except PyErr (Vz α)
  | .num a, .num b => .ok (.num (f a b))
  | .num a, .arr b => .ok (.arr (mapImg (fun v => f a v) b))
  | .arr a, .num b => .ok (.arr (mapImg (fun v => f v b) a))
  | .arr a, .arr b => match zipImg f a b with
    | .error e => .error e
    | .ok im => .ok (.arr im)

def mapVz {α : Type} (f : α → α) : Vz α → Vz α
  | .num a => .num (f a)
  | .arr a => .arr (mapImg f a)

/-- 276-280, 295-299, 307-310, 321-324: operation with another field (its coordinates are not used). -/
def opField {α : Type} (f : α → α → α) (F G : VField α) : Except PyErr (VField α) :=
  match zipImg f F.vx G.vx with
  | .error e => .error e
  | .ok vx => match zipImg f F.vy G.vy with
    | .error e => .error e
    | .ok vy => match zipVz f F.vz G.vz with
      | .error e => .error e
      | .ok vz => mkField F.x F.y F.z vx vy vz none

/-- 271-274, 290-293, 302-305, 316-319: operation with a number. -/
def opNumber {α : Type} (f : α → α) (F : VField α) : Except PyErr (VField α) :=
  mkField F.x F.y F.z (mapImg f F.vx) (mapImg f F.vy) (mapVz f F.vz) none

/-- The other operand: a number or a field. -/
inductive Operand (α : Type) where
  | number (v : α)
  | field (G : VField α)

/-- 270-280 -/
def add {α : Type} [Add α] (F : VField α) : Operand α → Except PyErr (VField α)
  | .number c => opNumber (fun v => v + c) F
  | .field G => opField (fun a b => a + b) F G

/-- 289-299 -/
def sub {α : Type} [Sub α] (F : VField α) : Operand α → Except PyErr (VField α)
  | .number c => opNumber (fun v => v - c) F
  | .field G => opField (fun a b => a - b) F G

/-- 301-310 -/
def mul {α : Type} [Mul α] (F : VField α) : Operand α → Except PyErr (VField α)
  | .number c => opNumber (fun v => c * v) F
  | .field G => opField (fun a b => b * a) F G

/-- 315-327 -/
def div {α : Type} [Div α] (F : VField α) : Operand α → Except PyErr (VField α)
  | .number c => opNumber (fun v => v / c) F
  | .field G => opField (fun a b => a / b) F G

/-! ## Extraction -/

/-- Python `l[a:b]` -/
def lslice {β : Type} (l : List β) (a b : Int) : List β :=
  (l.take (sliceBound l.length b)).drop (sliceBound l.length a)

/-- 489-490: `np.size(self.vz) > 1` -/
def extractVz {α : Type} (start0 stop0 start1 stop1 : Int) : Vz α → Vz α
  | .num v => .num v
  | .arr im => if im.ny * im.nx > 1 then .arr (im.slice start0 stop0 start1 stop1) else .arr im

/-- 491-496 -/
def extractZ {α : Type} (vx : Img α) (start0 stop0 start1 stop1 : Int) : Zc → Zc
  | .absent => .absent
  | .num v => .num v
  | .surf im => if sameShape vx im then .surf (im.slice start0 stop0 start1 stop1) else .surf im

/-- 469-504 `extract` with indices.  The constructor is not called. -/
def extract {α : Type} (F : VField α) (start0 stop0 start1 stop1 : Int) : VField α :=
  { F with
    x := lslice F.x start1 stop1
    y := lslice F.y start0 stop0
    vx := F.vx.slice start0 stop0 start1 stop1
    vy := F.vy.slice start0 stop0 start1 stop1
    vz := extractVz start0 stop0 start1 stop1 F.vz
    z := extractZ F.vx start0 stop0 start1 stop1 F.z }

/-- `a.min()`, `a.max()` of an array; `ValueError` if it is empty. -/
def minOf : List ℚ → Except PyErr ℚ
  | [] => .error .valueError
  | a :: l => .ok (l.foldl min a)

def maxOf : List ℚ → Except PyErr ℚ
  | [] => .error .valueError
  | a :: l => .ok (l.foldl max a)

/-- 475-480: first index and index after the last, for one coordinate.  `np.argwhere(y == v)[0][0]` is the index of the
first element equal to `v`. -/
def physBounds (y : List ℚ) (start stop : ℚ) : Except PyErr (Int × Int) :=
  let inside := y.filter (fun v => decide (start ≤ v) && decide (v ≤ stop))
  match minOf inside with
  | .error e => .error e
  | .ok lo => match maxOf inside with
    | .error e => .error e
    | .ok hi => .ok ((y.idxOf lo : Nat), (y.idxOf hi : Nat) + 1)

/-- 469-504 `extract` with `phys=True`. -/
def extractPhys {α : Type} (F : VField α) (start0 stop0 start1 stop1 : ℚ) : Except PyErr (VField α) :=
  match physBounds F.y start0 stop0 with
  | .error e => .error e
  | .ok (a0, b0) => match physBounds F.x start1 stop1 with
    | .error e => .error e
    | .ok (a1, b1) => .ok (extract F a0 b0 a1 b1)

/-- 506-513 `truncate` -/
def truncate {α : Type} (F : VField α) (cut : Int) : VField α :=
  extract F cut (F.vx.ny - cut) cut (F.vx.nx - cut)

/-- 515-535 `extract_square`: the arguments given to `extract`. -/
def squareBounds (n0 n1 cut : Int) (forceEven : Bool) : Int × Int × Int × Int :=
  let n := min n0 n1 - 2 * cut
  let n := if forceEven ∧ n % 2 = 1 then n - 1 else n
  if n1 > n0 then
    let start1 := (n1 - n) / 2
    (cut, cut + n, start1, start1 + n)
  else
    let start1 := cut
    ((n0 - n) / 2, start1 + n, start1, cut + n)

/-- 515-535 -/
def extractSquare {α : Type} (F : VField α) (cut : Int) (forceEven : Bool) : VField α :=
  let b := squareBounds F.y.length F.x.length cut forceEven
  extract F b.1 b.2.1 b.2.2.1 b.2.2.2

/-! ## Regularisation -/

/-- 591-594 -/
def cutX {α : Type} (F : VField α) : VField α :=
  { F with x := F.x.dropLast, vx := F.vx.slice 0 F.vx.ny 0 (-1), vy := F.vy.slice 0 F.vy.ny 0 (-1) }

/-- 596-599 -/
def cutY {α : Type} (F : VField α) : VField α :=
  { F with y := F.y.dropLast, vx := F.vx.slice 0 (-1) 0 F.vx.nx, vy := F.vy.slice 0 (-1) 0 F.vy.nx }

/-- 591, 596: `not _is_regular(x) and _is_regular(x[:-1])` -/
def onlyLastIrregular (x : List ℚ) : Except PyErr Bool :=
  match isRegular x with
  | .error e => .error e
  | .ok true => .ok false
  | .ok false => isRegular x.dropLast

/-- 588-589 -/
def zIsSurf : Zc → Bool
  | .surf _ => true
  | _ => false

/-- 585-586 -/
def vzIsArr {α : Type} : Vz α → Bool
  | .arr _ => true
  | _ => false

/-- 580-603 `regularize_grid` (in place; the result is the modified field). -/
def regularizeGrid {α : Type} (F : VField α) : Except PyErr (VField α) :=
  if F.regular then .ok F
  else if vzIsArr F.vz then .error .notImplementedError
  else if zIsSurf F.z then .error .notImplementedError
  else match onlyLastIrregular F.x with
    | .error e => .error e
    | .ok bx =>
      let F1 := if bx then cutX F else F
      match onlyLastIrregular F1.y with
      | .error e => .error e
      | .ok bY =>
        let F2 := if bY then cutY F1 else F1
        match gridRegular F2.x F2.y F2.z F2.vx with
        | .error e => .error e
        | .ok false => .error .notImplementedError
        | .ok true => .ok { F2 with regular := true }

/-! ## Time average

The objects are in a heap (list of fields); an object is its index.  `deepcopy` and the operations create new objects. -/

/-- 629-630: `result += piv`: there is no `__iadd__`, so this is `result = result + piv`. -/
def sumLoop {α : Type} [Add α] (heap : List (VField α)) (result : Nat) :
    List Nat → Except PyErr (List (VField α) × Nat)
  | [] => .ok (heap, result)
  | piv :: l => match heap[result]?, heap[piv]? with
    | some R, some P => match add R (.field P) with
      | .error e => .error e
      | .ok S => sumLoop (heap ++ [S]) heap.length l
    | _, _ => .error .nameError

/-- 626-631 `compute_time_average`; `ofNat` is the conversion of the length to a value. -/
def timeAverage {α : Type} [Add α] [Div α] (ofNat : Nat → α) (heap : List (VField α)) :
    List Nat → Except PyErr (List (VField α) × Nat)
  | [] => .error .indexError
  | first :: l => match heap[first]? with
    | none => .error .nameError
    | some F => match sumLoop (heap ++ [F]) heap.length l with
      | .error e => .error e
      | .ok (heap', result) => match heap'[result]? with
        | none => .error .nameError
        | some R => match div R (.number (ofNat (l.length + 1))) with
          | .error e => .error e
          | .ok S => .ok (heap' ++ [S], heap'.length)

end Verif.VectorField
