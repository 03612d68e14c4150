import Verif.Model.PivGrid

/-!
# Model of the reshaping of flat vectors on a 2D grid

`/repo/src/fluidimage/postproc/util.py`: 20-44 (`get_grid_from_ivecs_final`), 47-67 (`reshape_on_grid_final`).

Coordinates are rationals (the code only compares them and takes the sign of differences; no NaN).
-/

namespace Verif.GridFinal
open Verif Verif.PivGrid

/-- Insertion in a sorted list without repetition. -/
def insertU (a : ℚ) : List ℚ → List ℚ
  | [] => [a]
  | b :: l => if a < b then a :: b :: l else if a = b then b :: l else b :: insertU a l

/-- NumPy `np.unique`: sorted values without repetition. -/
def unique (l : List ℚ) : List ℚ := l.foldr insertU []

/-- NumPy `a[i]` for a non-negative index. -/
def at' (l : List ℚ) (i : Nat) : Except PyErr ℚ :=
  match l[i]? with
  | some v => .ok v
  | none => .error .indexError

/-- 26-35: the differences `dx` and `dy`, in the order of the code. -/
def deltas (xf yf : List ℚ) (nx ny : Nat) : Except PyErr (ℚ × ℚ) :=
  match at' xf 1 with
  | .error e => .error e
  | .ok x1 => match at' xf 0 with
    | .error e => .error e
    | .ok x0 => match at' yf 1 with
      | .error e => .error e
      | .ok y1 => match at' yf 0 with
        | .error e => .error e
        | .ok y0 =>
          if x1 = x0 then
            if y1 = y0 then .error .assertionError
            else match at' xf ny with
              | .error e => .error e
              | .ok xn => .ok (xn - x0, y1 - y0)
          else
            if y1 ≠ y0 then .error .assertionError
            else match at' yf nx with
              | .error e => .error e
              | .ok yn => .ok (x1 - x0, yn - y0)

/-- 20-44 `get_grid_from_ivecs_final`: the two 1D arrays `x`, `y` given to `np.meshgrid`. -/
def axes (xf yf : List ℚ) : Except PyErr (List ℚ × List ℚ) :=
  let x := unique xf
  let y := unique yf
  match deltas xf yf x.length y.length with
  | .error e => .error e
  | .ok (dx, dy) => .ok (if dx < 0 then x.reverse else x, if dy < 0 then y.reverse else y)

/-- NumPy `np.meshgrid(x, y)`. -/
def meshgrid (x y : List ℚ) : Img ℚ × Img ℚ :=
  (⟨y.length, x.length, fun _ i => x.getD i 0⟩, ⟨y.length, x.length, fun j _ => y.getD j 0⟩)

/-- NumPy `np.reshape(l, (a, b))`. -/
def reshape {V : Type} [Inhabited V] (l : List V) (a b : Nat) : Except PyErr (Img V) :=
  if l.length = a * b then .ok ⟨a, b, fun i j => l.getD (i * b + j) default⟩ else .error .valueError

/-- NumPy `a.T` -/
def transpose {V : Type} (im : Img V) : Img V := ⟨im.nx, im.ny, fun i j => im.get j i⟩

/-- 47-67 `reshape_on_grid_final`.  The tests of 52-58 are those of `get_grid_from_ivecs_final` (no error if these have
passed). -/
def reshapeOnGrid {V : Type} [Inhabited V] (xf yf : List ℚ) (us vs : List V) :
    Except PyErr (Img ℚ × Img ℚ × Img V × Img V) :=
  match axes xf yf with
  | .error e => .error e
  | .ok (x, y) =>
    let XY := meshgrid x y
    if xf[1]? = xf[0]? then
      match reshape us XY.1.nx XY.1.ny with
      | .error e => .error e
      | .ok U => match reshape vs XY.1.nx XY.1.ny with
        | .error e => .error e
        | .ok V => .ok (XY.1, XY.2, transpose U, transpose V)
    else
      match reshape us XY.1.ny XY.1.nx with
      | .error e => .error e
      | .ok U => match reshape vs XY.1.ny XY.1.nx with
        | .error e => .error e
        | .ok V => .ok (XY.1, XY.2, U, V)

end Verif.GridFinal
