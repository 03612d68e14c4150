import Verif.Py.Basic
import Mathlib.Data.Rat.Floor
import Mathlib.Algebra.Order.Floor.Semiring
import Mathlib.Data.Nat.Sqrt

/-!
# Model of the thin plate spline interpolation with sub-domains

`/repo/src/fluidimage/calcul/interpolate/thin_plate_spline_subdom.py`: class `ThinPlateSplineSubdom`.

Simplifications: numbers are rationals (exact arithmetic); the square roots appear only through their floor or ceiling;
the normalisation of the smoothing coefficient (75-80) is not modelled; the solution of the linear systems
(`compute_tps_weights`, thin_plate_spline.py 168-216) is a parameter which can fail (`LinAlgError`).
-/

namespace Verif.Tps
open Verif

/-- `int(np.floor(sqrt(q)))` -/
def floorSqrt (q : ℚ) : Nat := Nat.sqrt ⌊q⌋.toNat

/-- `int(np.ceil(sqrt(q)))` -/
def ceilSqrt (q : ℚ) : Nat :=
  let n := ⌈q⌉.toNat
  if Nat.sqrt n * Nat.sqrt n = n then Nat.sqrt n else Nat.sqrt n + 1

/-- `n or 1` -/
def orOne (n : Nat) : Nat := if n = 0 then 1 else n

/-- `arr.min()`, `arr.max()` -/
def listMin : List ℚ → Except PyErr ℚ
  | [] => .error .valueError
  | x :: l => .ok (l.foldl min x)

def listMax : List ℚ → Except PyErr ℚ
  | [] => .error .valueError
  | x :: l => .ok (l.foldl max x)

/-- Limits and numbers of the sub-domains. -/
structure Grid where
  nbx : Nat
  nby : Nat
  x0 : ℚ
  x1 : ℚ
  y0 : ℚ
  y1 : ℚ
  bufX : ℚ
  bufY : ℚ

/-- 50-84.  58: with all the points on a line the aspect ratio is 0, infinite or NaN, and the conversion to an integer
(61, 63) fails. -/
def setup (xs ys : List ℚ) (size : Nat) (percent : ℚ) : Except PyErr Grid :=
  match listMin xs, listMax xs, listMin ys, listMax ys with
  | .ok x0, .ok x1, .ok y0, .ok y1 =>
    let rx := x1 - x0
    let ry := y1 - y0
    if size = 0 then .error .zeroDivisionError                              -- 60
    else if rx = 0 ∧ ry = 0 then .error .valueError
    else if rx = 0 ∨ ry = 0 then .error .overflowError
    else
      let ratio := ry / rx
      let nb : ℚ := (xs.length : ℚ) / (size : ℚ)
      let nbx := orOne (floorSqrt (nb / ratio))                              -- 61-62
      let nby := orOne (ceilSqrt (nb * ratio))                               -- 63-64
      .ok ⟨nbx, nby, x0, x1, y0, y1, percent / 100 * rx / nbx, percent / 100 * ry / nby⟩   -- 82-84
  | .error e, _, _, _ => .error e
  | _, .error e, _, _ => .error e
  | _, _, .error e, _ => .error e
  | _, _, _, .error e => .error e

/-- `np.linspace(a, b, n + 1)[k]` -/
def linspace (a b : ℚ) (n k : Nat) : ℚ := a + (k : ℚ) * ((b - a) / (n : ℚ))

/-- Limits of one sub-domain (101-104). -/
structure Dom where
  xmin : ℚ
  xmax : ℚ
  ymin : ℚ
  ymax : ℚ

/-- 86-90, 98-104: the sub-domains, in the order of the loops. -/
def Grid.doms (g : Grid) : List Dom :=
  (List.range g.nby).flatMap (fun iy => (List.range g.nbx).map (fun ix =>
    ⟨linspace g.x0 g.x1 g.nbx ix - g.bufX, linspace g.x0 g.x1 g.nbx (ix + 1) + g.bufX,
     linspace g.y0 g.y1 g.nby iy - g.bufY, linspace g.y0 g.y1 g.nby (iy + 1) + g.bufY⟩))

/-- 108, 180-183 -/
def Dom.contains (d : Dom) (x y : ℚ) : Bool := decide (d.xmin ≤ x ∧ x < d.xmax ∧ d.ymin ≤ y ∧ y < d.ymax)

/-- 106-110, 178-185: `np.where(...)[0]` for the points `(xs[i], ys[i])`, `i < n`. -/
def Dom.indices (d : Dom) (n : Nat) (xs ys : Nat → ℚ) : List Nat :=
  (List.range n).filter (fun i => d.contains (xs i) (ys i))

/-- 208-222 `_compute_coef_norm` for one point (114-115: the centre). -/
def Dom.coef (d : Dom) (x y : ℚ) : ℚ :=
  let xc := 1 / 2 * (d.xmin + d.xmax)
  let yc := 1 / 2 * (d.ymin + d.ymax)
  (1 - (x - xc) ^ 2 / (d.xmax - xc) ^ 2) * (1 - (y - yc) ^ 2 / (d.ymax - yc) ^ 2) + 1 / 1000

/-- `arr[inds] += vals` (the indices are distinct) -/
def addAt (f : Nat → ℚ) : List Nat → List ℚ → (Nat → ℚ)
  | i :: inds, v :: vals => addAt (fun j => if j = i then f j + v else f j) inds vals
  | _, _ => f

/-- 118-126, 187-196: the sums of the coefficients. -/
def normCoefs (n : Nat) (xs ys : Nat → ℚ) : List Dom → (Nat → ℚ) → (Nat → ℚ)
  | [], f => f
  | d :: ds, f =>
    let inds := d.indices n xs ys
    normCoefs n xs ys ds (addAt f inds (inds.map (fun i => d.coef (xs i) (ys i))))

/-- 145-151, 226-232: sums of the products of the coefficients and of the values of each sub-domain (`vals`: one list of
values per sub-domain, in the order of its indices). -/
def combine (n : Nat) (xs ys : Nat → ℚ) : List Dom → List (List ℚ) → (Nat → ℚ) → (Nat → ℚ)
  | d :: ds, v :: vs, f =>
    let inds := d.indices n xs ys
    combine n xs ys ds vs (addAt f inds (List.zipWith (· * ·) (inds.map (fun i => d.coef (xs i) (ys i))) v))
  | _, _, f => f

/-- 157, 233: division (`none`: NaN or infinite, the sum of the coefficients is 0) -/
def normalise (f c : Nat → ℚ) : Nat → Option ℚ := fun i => if c i = 0 then none else some (f i / c i)

/-- 157, 233: the field made from the values of the sub-domains -/
def recombine (g : Grid) (n : Nat) (xs ys : Nat → ℚ) (vals : List (List ℚ)) : Nat → Option ℚ :=
  normalise (combine n xs ys g.doms vals (fun _ => 0)) (normCoefs n xs ys g.doms (fun _ => 0))

/-! ## Iterations in one sub-domain -/

/-- Solution of the linear system: from the values at the centres to the smoothed values and the weights; `none` for
`LinAlgError`. -/
abbrev Solver := List ℚ → Option (List ℚ × List ℚ)

/-- 253-254, 266-267: which values are erratic -/
def erratic (t : ℚ) (smoothed values : List ℚ) : List Bool :=
  List.zipWith (fun s v => decide (t < |s - v|)) smoothed values

/-- 261: `values[ind] = smoothed[ind]` -/
def fixValues (t : ℚ) (smoothed values : List ℚ) : List ℚ :=
  List.zipWith (fun s v => if t < |s - v| then s else v) smoothed values

/-- Result of the iterations; `given` is the list of the values given to the successive solves (not in the code). -/
structure Iter where
  smoothed : List ℚ
  weights : List ℚ
  nbFixed : Nat
  nbIterations : Nat
  values : List ℚ
  given : List (List ℚ)

inductive TpsErr where
  | linAlg | py (e : PyErr)
deriving DecidableEq, Repr

/-- 259-276: the loop. -/
def iterLoop (solve : Solver) (t : ℚ) (count : Nat) (r : Iter) : Except TpsErr Iter :=
  if (erratic t r.smoothed r.values).count true = 0 then .ok { r with nbIterations := count }
  else
    let values := fixValues t r.smoothed r.values
    match solve values with
    | none => .error .linAlg
    | some (s, w) =>
      let r' : Iter := ⟨s, w, r.nbFixed + (erratic t r.smoothed r.values).count true, count + 1, values, r.given ++ [values]⟩
      if 10 < count + 1 then .ok r'
      else iterLoop solve t (count + 1) r'
termination_by 10 - count

/-- 236-280 `compute_tps_weights_iter` (with no point 256 `max([])` fails, but the linear system fails before) -/
def iter (solve : Solver) (t : Option ℚ) (values : List ℚ) : Except TpsErr Iter :=
  match solve values with
  | none => .error .linAlg
  | some (s, w) =>
    let r : Iter := ⟨s, w, 0, 1, values, [values]⟩
    match t with
    | none => .ok r
    | some t => iterLoop solve t 1 r

/-- 134-143 -/
def iterAll (t : Option ℚ) : List Solver → List (List ℚ) → Except TpsErr (List Iter)
  | s :: ss, v :: vs => match iter s t v with
    | .error e => .error e
    | .ok r => match iterAll t ss vs with
      | .error e => .error e
      | .ok rs => .ok (r :: rs)
  | _, _ => .ok []

/-- 128-159 `compute_tps_weights_subdom`: smoothed field and weights.  154: the key `"max(Udiff)"` is missing in the
summaries if there is no threshold (256). -/
def weightsSubdom (g : Grid) (n : Nat) (xs ys : Nat → ℚ) (solvers : List Solver) (t : Option ℚ) (values : Nat → ℚ) :
    Except TpsErr ((Nat → Option ℚ) × List (List ℚ)) :=
  match iterAll t solvers (g.doms.map (fun d => (d.indices n xs ys).map values)) with
  | .error e => .error e
  | .ok rs => match t, rs with
    | none, _ :: _ => .error (.py .keyError)
    | _, _ => .ok (recombine g n xs ys (rs.map Iter.smoothed), rs.map Iter.weights)

end Verif.Tps
