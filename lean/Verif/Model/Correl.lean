import Verif.Model.PivGrid

/-!
# Model of the correlation: search of the peaks

`/repo/src/fluidimage/calcul/correl.py`: 64-65, 88-164, 187-281 (`CorrelBase`), 388-409 (`CorrelPythran`), 459-483
(`CorrelScipySignal`), 503-504 (`CorrelScipyNdimage`), 518-568 (`CorrelFFTBase`), 596-636 (`_like_fftshift`).

A float is a rational number or NaN (`none`); infinite values and rounding errors are not modelled.
-/

namespace Verif.Correl
open Verif Verif.PivGrid

/-- A correlation map. -/
abbrev Map := Img (Option ℚ)

/-- Explanations of a `PIVError` (127-130). -/
inductive Msg where
  | boundary | nan
deriving DecidableEq, Repr

/-- 99-106: the first value which is not NaN, from the start of the search area to the end of the array. -/
def firstValue (c : Map) (i0s i1s : Nat) : Option ℚ :=
  (List.range' (i0s * c.nx + i1s) (c.ny * c.nx - (i0s * c.nx + i1s))).findSome? (fun i => c.get (i / c.nx) (i % c.nx))

/-- 113-114: the indices of the search area, in the order of the loops. -/
def area (i0s i0e i1s i1e : Nat) : List (Nat × Nat) :=
  (List.range' i0s (i0e - i0s)).flatMap (fun i0 => (List.range' i1s (i1e - i1s)).map (fun i1 => (i0, i1)))

/-- 115-121: body of the loops. -/
def scanStep (c : Map) (st : ℚ × Nat × Nat) (p : Nat × Nat) : ℚ × Nat × Nat :=
  match c.get p.1 p.2 with
  | none => st
  | some v => if st.1 ≤ v then (v, p.1, p.2) else st

/-- 80-85 `_is_there_a_nan` on the 9 points around `(i0, i1)`. -/
def nanAround (c : Map) (i0 i1 : Nat) : Bool :=
  (List.range 9).any (fun k => (c.get (i0 - 1 + k / 3) (i1 - 1 + k % 3)).isNone)

/-- 88-132 `nan_indices_max` -/
def nanIndicesMax (c : Map) (i0s i0e i1s i1e : Nat) : Except PyErr (Nat × Nat × Option Msg) :=
  match firstValue c i0s i1s with
  | none => .error .assertionError                                   -- 108
  | some v0 =>
    let r := (area i0s i0e i1s i1e).foldl (scanStep c) (v0, 0, 0)
    let i0 := r.2.1
    let i1 := r.2.2
    if i0 = 0 ∨ i0 + 1 = c.ny ∨ i1 = 0 ∨ i1 + 1 = c.nx then .ok (i0, i1, some .boundary)
    else if nanAround c i0 i1 then .ok (i0, i1, some .nan)
    else .ok (i0, i1, none)

/-- A peak: `(ix, iy, correl_max)`. -/
structure Peak where
  ix : Nat
  iy : Nat
  correlMax : Option ℚ
deriving DecidableEq

/-- The exceptions: a `PIVError` with its results, or another exception. -/
inductive Err (β : Type) where
  | piv (m : Msg) (results : β)
  | py (e : PyErr)
deriving DecidableEq

/-- The search area: `None` bounds (default) mean the whole array. -/
abbrev SearchArea := Option (Nat × Nat × Nat × Nat)

/-- 135-164 `_compute_indices_max` -/
def computeIndicesMax (c : Map) (norm : ℚ) (a : SearchArea) : Except (Err Peak) Peak :=
  let b := a.getD (0, c.ny, 0, c.nx)
  match nanIndicesMax c b.1 b.2.1 b.2.2.1 b.2.2.2 with
  | .error e => .error (.py e)
  | .ok (iy, ix, m) =>
    let p : Peak := ⟨ix, iy, if norm = 0 then some 0 else (c.get iy ix).map (· / norm)⟩
    match m with
    | some m => .error (.piv m p)
    | none => .ok p

/-- 234-237, 256-259: NaN on the neighbourhood of a peak. -/
def mask (c : Map) (r ix iy : Nat) : Map :=
  let y0 := sliceBound c.ny ((iy : Int) - r)
  let y1 := sliceBound c.ny ((iy : Int) + r + 1)
  let x0 := sliceBound c.nx ((ix : Int) - r)
  let x1 := sliceBound c.nx ((ix : Int) + r + 1)
  ⟨c.ny, c.nx, fun i j => if y0 ≤ i ∧ i < y1 ∧ x0 ≤ j ∧ j < x1 then none else c.get i j⟩

/-- What a correlation object needs: index of no displacement, search area, `particle_radius`,
`nb_peaks_to_search`. -/
structure Cls where
  ix0 : Int
  iy0 : Int
  area : SearchArea
  radius : Nat
  nbPeaks : Nat

/-- 209-211 -/
def Cls.displacement (k : Cls) (ix iy : Int) : Int × Int := (k.ix0 - ix, k.iy0 - iy)

/-- 213-215 -/
def Cls.indices (k : Cls) (dx dy : Int) : Int × Int := (k.ix0 - dx, k.iy0 - dy)

/-- 64-65: module function, with the indices `(iy0, ix0)` saved in the results (217-219). -/
def indicesFromDisplacement (dx dy : Int) (noDispl : Int × Int) : Int × Int := (noDispl.2 - dx, noDispl.1 - dy)

/-- 217-219 -/
def Cls.noDisplacement (k : Cls) : Int × Int := (k.iy0, k.ix0)

/-- A displacement: `(dx, dy, correl_max)`. -/
structure Displ where
  dx : Int
  dy : Int
  correlMax : Option ℚ
deriving DecidableEq

def Cls.toDispl (k : Cls) (p : Peak) : Displ :=
  ⟨(k.displacement p.ix p.iy).1, (k.displacement p.ix p.iy).2, p.correlMax⟩

/-- 255-270: search of the other peaks; `p` is the last peak found. -/
def otherPeaks (k : Cls) (norm : ℚ) : Nat → Map → Peak → Except PyErr (List Displ)
  | 0, _, _ => .ok []
  | n + 1, c, p =>
    let c := mask c k.radius p.ix p.iy
    match computeIndicesMax c norm k.area with
    | .error (.piv _ _) => .ok []
    | .error (.py e) => .error e
    | .ok p' => match otherPeaks k norm n c p' with
      | .error e => .error e
      | .ok l => .ok (k.toDispl p' :: l)

/-- 229-246: the first peak, with a second chance when it is rejected.  Returns the peak and the map. -/
def firstPeak (k : Cls) (c : Map) (norm : ℚ) : Except (Err Displ) (Peak × Map) :=
  match computeIndicesMax c norm k.area with
  | .ok p => .ok (p, c)
  | .error (.py e) => .error (.py e)
  | .error (.piv _ p) =>
    let c := mask c k.radius p.ix p.iy
    match computeIndicesMax c norm k.area with
    | .ok p2 => .ok (p2, c)
    | .error (.py e) => .error (.py e)
    | .error (.piv m _) => .error (.piv m (k.toDispl p))

/-- 226-275 `compute_displacements_from_correl` -/
def displacements (k : Cls) (c : Map) (norm : ℚ) : Except (Err Displ) (Displ × Option (List Displ)) :=
  match firstPeak k c norm with
  | .error e => .error e
  | .ok (p, c) =>
    if k.nbPeaks = 1 then .ok (k.toDispl p, none)
    else if 1 ≤ k.nbPeaks then
      match otherPeaks k norm (k.nbPeaks - 1) c p with
      | .error e => .error (.py e)
      | .ok l => .ok (k.toDispl p, some l)
    else .error (.py .valueError)

/-! ## Correlation classes based on FFT -/

/-- 189: index of no displacement of `CorrelBase`, in one direction. -/
def centre (n : Nat) : Int := (n : Int) / 2 - 1

/-- 522-526 `where_large_displacement` (`sqrt` is exact in the model). -/
def largeDispl (n0 n1 : Nat) (dmax : ℚ) (i0 i1 : Nat) : Bool :=
  let dx := centre n1 - i1
  let dy := centre n0 - i0
  decide (dmax < 0 ∨ dmax * dmax < ((dx * dx + dy * dy : Int) : ℚ))

/-- `for i in range(n): if p(i): break`: the value of `i` after the loop (`n > 0`). -/
def breakUp (p : Nat → Bool) (n : Nat) : Nat := ((List.range n).find? p).getD (n - 1)

/-- `for i in range(n - 1, -1, -1): if p(i): break` -/
def breakDown (p : Nat → Bool) (n : Nat) : Nat := ((List.range n).reverse.find? p).getD 0

/-- 530-547: the search area. -/
def fftArea (n0 n1 : Nat) (dmax : ℚ) : Nat × Nat × Nat × Nat :=
  let row := fun i0 => !(List.range n1).all (fun i1 => largeDispl n0 n1 dmax i0 i1)
  let col := fun i1 => !(List.range n0).all (fun i0 => largeDispl n0 n1 dmax i0 i1)
  (breakUp row n0, breakDown row n0 + 1, breakUp col n1, breakDown col n1 + 1)

/-- 172-200, 518-547: a correlation object based on FFT, windows of shape `(n0, n1)`. -/
def fftCls (n0 n1 : Nat) (dmax : Option ℚ) (radius nbPeaks : Nat) : Cls :=
  ⟨centre n1, centre n0, dmax.map (fftArea n0 n1), radius, nbPeaks⟩

/-- 566: NaN where the displacement is too large. -/
def maskLarge (n0 n1 : Nat) (dmax : ℚ) (c : Map) : Map :=
  ⟨c.ny, c.nx, fun i j => if largeDispl n0 n1 dmax i j then none else c.get i j⟩

/-- 561-568 `compute_displacements_from_correl` of the classes based on FFT. -/
def fftDisplacements (n0 n1 : Nat) (dmax : Option ℚ) (radius nbPeaks : Nat) (c : Map) (norm : ℚ) :
    Except (Err Displ) (Displ × Option (List Displ)) :=
  let k := fftCls n0 n1 dmax radius nbPeaks
  match dmax with
  | none => displacements k c norm
  | some d => displacements k (maskLarge n0 n1 d c) norm

/-! ## Other correlation classes: index of no displacement -/

/-- 388-409 `CorrelPythran._finalize_init`: `displacement_max`, which is also `ix0` and `iy0`.  The local variable is
not defined when the argument is given. -/
def pythranInit (dmax : Option ℚ) (n0 n1 m0 m1 : Int) : Except PyErr Int :=
  match dmax with
  | some _ => .error .unboundLocalError                              -- 401
  | none =>
    let d := if n0 = m0 ∧ n1 = m1 then min n0 n1 / 2 - 1 else min (n0 - m0) (n1 - m1) / 2 - 1
    if d ≤ 0 then .error .valueError else .ok d

/-- 467-476 `CorrelScipySignal`, mode "same" -/
def scipySignalCentre (n : Nat) : Int := if n % 2 = 0 then (n : Int) / 2 - 1 else (n : Int) / 2

/-- 503-504 `CorrelScipyNdimage` -/
def scipyNdimageCentre (n : Nat) : Int := (n : Int) / 2

/-! ## `_like_fftshift` -/

/-- One assignment of an array. -/
def set1 {α : Type} (f : Nat → α) (i : Nat) (v : α) : Nat → α := fun k => if k = i then v else f k

/-- 610-612, 626-628: `for i in range(n): dst[h + i] = src[i]; dst[i] = src[h + i]` -/
def swapLoop {α : Type} (src : Nat → α) (h : Nat) : Nat → (Nat → α) → (Nat → α)
  | 0, dst => dst
  | n + 1, dst => let dst := swapLoop src h n dst
    set1 (set1 dst (h + n) (src n)) n (src (h + n))

/-- 615-619, 632-635: `for i in range(n): dst[a + i] = src[b + i]` -/
def copyLoop {α : Type} (src : Nat → α) (a b : Nat) : Nat → (Nat → α) → (Nat → α)
  | 0, dst => dst
  | n + 1, dst => set1 (copyLoop src a b n dst) (a + n) (src (b + n))

/-- 608-619 (one row of `n = n1` elements) -/
def shiftRow {α : Type} (n : Nat) (src dst : Nat → α) : Nat → α :=
  if n % 2 = 0 then swapLoop src (n / 2) (n / 2) dst
  else copyLoop src 0 (n / 2 + 1) (n / 2) (copyLoop src (n / 2) 0 (n / 2 + 1) dst)

/-- 624-635: the rows, with 1D views. -/
def shiftRows {α : Type} (n0 n1 : Nat) (src dst : Nat → α) : Nat → α :=
  if n0 % 2 = 0 then swapLoop src (n0 / 2 * n1) (n0 / 2 * n1) dst
  else copyLoop src 0 ((n0 / 2 + 1) * n1) (n0 / 2 * n1)
    (copyLoop src (n0 / 2 * n1) 0 ((n0 / 2 + 1) * n1) dst)

/-- 596-636 `_like_fftshift`.  `junk` is the content of `np.empty_like` (606). -/
def likeFftshift {α : Type} (junk : Nat → Nat → α) (a : Img α) : Img α :=
  let arr : Nat → Nat → α := fun i j => a.get (a.ny - 1 - i) (a.nx - 1 - j)      -- 605
  let tmp : Nat → Nat → α := fun i0 => shiftRow a.nx (arr i0) (junk i0)           -- 608-619
  let out := shiftRows a.ny a.nx (fun k => tmp (k / a.nx) (k % a.nx)) (fun k => arr (k / a.nx) (k % a.nx))
  ⟨a.ny, a.nx, fun i j => out (i * a.nx + j)⟩

end Verif.Correl
