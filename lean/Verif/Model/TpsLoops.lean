import Verif.Py.Basic

/-!
# The two implementations of the matrix of the thin plate splines

`/repo/src/fluidimage/calcul/interpolate/thin_plate_spline.py` 38-104 (`compute_tps_matrix_pythran`, explicit loops), 107-153
(`compute_tps_matrix_numpy`, operations on arrays), 156-165 (the one which is used depends on the installation).

The arithmetic is a parameter, without any law, so that equal results are results which are equal bit by bit: `F` are the numbers of the results
(float64), `I` the numbers of the positions (for instance float64, float32 or integers).  An array of shape (n, m) is a function of two indices (only
the values at indices less than n and m are used).
-/

namespace Verif.TpsLoops
open Verif

/-- The operations of the code. -/
structure Arith (I F : Type) where
  zero : F
  one : F
  add : F → F → F
  sub : F → F → F
  /-- `x ** 2` -/
  sq : F → F
  /-- `tmp * np.log(tmp) / 2` -/
  xlogx : F → F
  /-- `tmp != 0` (true for NaN) -/
  ne0 : F → Bool
  /-- the operations of the type of the positions, and its conversion to float64 -/
  subI : I → I → I
  sqI : I → I
  cast : I → F

/-- An array with two dimensions. -/
structure Arr (V : Type) where
  n : Nat
  m : Nat
  at_ : Nat → Nat → V

/-- `EM[i, j] = v` -/
def put {V : Type} (em : Nat → Nat → V) (i j : Nat) (v : V) : Nat → Nat → V :=
  fun i' j' => if i' = i ∧ j' = j then v else em i' j'

section
variable {I F : Type} (A : Arith I F)

/-! ## Pythran -/

/-- 83-84: the loop over the new positions, for a dimension and a center. -/
def addNewPos (center : F) (newPos : Nat → F) (ic : Nat) : List Nat → (Nat → Nat → F) → Nat → Nat → F
  | [], em => em
  | inp :: l, em => addNewPos center newPos ic l (put em ic inp (A.add (em ic inp) (A.sq (A.sub (newPos inp) center))))

/-- 82-84: the loop over the centers, for a dimension. -/
def addCenters (centers : Nat → F) (newPos : Nat → F) (nbNew : Nat) : List Nat → (Nat → Nat → F) → Nat → Nat → F
  | [], em => em
  | ic :: l, em => addCenters centers newPos nbNew l (addNewPos A (centers ic) newPos ic (List.range nbNew) em)

/-- 81-84: the loop over the dimensions. -/
def addDims (centers newPos : Nat → Nat → F) (nbCenters nbNew : Nat) : List Nat → (Nat → Nat → F) → Nat → Nat → F
  | [], em => em
  | k :: l, em => addDims centers newPos nbCenters nbNew l (addCenters A (centers k) (newPos k) nbNew (List.range nbCenters) em)

/-- 91-94: the inner loop. -/
def logRow (ic : Nat) : List Nat → (Nat → Nat → F) → Nat → Nat → F
  | [], em => em
  | inp :: l, em => logRow ic l (if A.ne0 (em ic inp) then put em ic inp (A.xlogx (em ic inp)) else em)

/-- 90-94 -/
def logRows (nbNew : Nat) : List Nat → (Nat → Nat → F) → Nat → Nat → F
  | [], em => em
  | ic :: l, em => logRows nbNew l (logRow A ic (List.range nbNew) em)

/-- 38-104 `compute_tps_matrix_pythran`; 99-102: three slices of an empty array are filled (`junk`: its content before). -/
def pythran (junk : Nat → Nat → F) (newPos centers : Arr F) : Except PyErr (Arr F) :=
  if newPos.n ≠ centers.n then .error .assertionError
  else
    let em := addDims A centers.at_ newPos.at_ centers.m newPos.m (List.range newPos.n) fun _ _ => A.zero
    let em := logRows A newPos.m (List.range centers.m) em
    let ret0 := junk
    let ret1 := fun i j => if i < centers.m then em i j else ret0 i j
    let ret2 := fun i j => if i = centers.m then A.one else ret1 i j
    let ret3 := fun i j => if centers.m + 1 ≤ i ∧ i < centers.m + 1 + newPos.n then newPos.at_ (i - (centers.m + 1)) j else ret2 i j
    .ok ⟨centers.m + 1 + newPos.n, newPos.m, ret3⟩

/-! ## NumPy -/

/-- `np.meshgrid(x, y)`: the values of `x` along the lines, the values of `y` along the columns. -/
def meshgrid {V : Type} (x y : Nat → V) : (Nat → Nat → V) × (Nat → Nat → V) := (fun _ j => x j, fun i _ => y i)

/-- 146-148: the loop over the dimensions; the difference and the square are computed with the type of the positions. -/
def addMeshes (centers newPos : Nat → Nat → I) : List Nat → (Nat → Nat → F) → Nat → Nat → F
  | [], em => em
  | k :: l, em =>
    let g := meshgrid (newPos k) (centers k)
    addMeshes centers newPos l fun i j => A.add (em i j) (A.cast (A.sqI (A.subI (g.1 i j) (g.2 i j))))

/-- `np.where(EM != 0)`: the indices, line by line. -/
def whereNe0 (em : Nat → Nat → F) (n m : Nat) : List (Nat × Nat) :=
  (List.range n).flatMap fun i => ((List.range m).filter fun j => A.ne0 (em i j)).map fun j => (i, j)

/-- `EM[nb_p] = values`: the values have been computed before. -/
def putAll (em : Nat → Nat → F) : List ((Nat × Nat) × F) → Nat → Nat → F
  | [] => em
  | (p, v) :: l => putAll (put em p.1 p.2 v) l

/-- `np.vstack` of arrays with the same number of columns. -/
def vstack {V : Type} : List (Nat × (Nat → Nat → V)) → V → Nat → Nat → V
  | [], d, _, _ => d
  | (n, a) :: l, d, i, j => if i < n then a i j else vstack l d (i - n) j

/-- 107-153 `compute_tps_matrix_numpy` -/
def numpy (newPos centers : Arr I) : Except PyErr (Arr F) :=
  if newPos.n ≠ centers.n then .error .assertionError
  else
    let em := addMeshes A centers.at_ newPos.at_ (List.range newPos.n) fun _ _ => A.zero
    let nbP := whereNe0 A em centers.m newPos.m
    let em' := putAll em (nbP.map fun p => (p, A.xlogx (em p.1 p.2)))
    .ok ⟨centers.m + (1 + newPos.n), newPos.m,
      vstack [(centers.m, em'), (1, fun _ _ => A.one), (newPos.n, fun i j => A.cast (newPos.at_ i j))] A.zero⟩

/-! ## The function which is used -/

/-- 156-165: with the compiled extension the positions are converted (`astype(np.float64)`); without it, the function for NumPy. -/
def computeTpsMatrix (compiled : Bool) (junk : Nat → Nat → F) (newPos centers : Arr I) : Except PyErr (Arr F) :=
  if compiled then pythran A junk ⟨newPos.n, newPos.m, fun i j => A.cast (newPos.at_ i j)⟩ ⟨centers.n, centers.m, fun i j => A.cast (centers.at_ i j)⟩
  else numpy A newPos centers

end

end Verif.TpsLoops
