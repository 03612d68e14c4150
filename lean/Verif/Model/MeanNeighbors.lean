import Verif.Model.CorrelDirect

/-!
# Model of the mean over the neighbours

`/repo/src/fluidimage/calcul/mean_neighbors.py`

Numbers are rationals, NaN is `none`.  The number of points (at most 8) is a natural number (`uint8` in the code).
-/

namespace Verif.MeanNeighbors
open Verif Verif.PivGrid Verif.CorrelDirect

/-- `arr[i, j]` with Python indices. -/
def pyGet {α : Type} (a : Img α) (i j : Int) : Except PyErr α :=
  match pyIndex a.ny i, pyIndex a.nx j with
  | some i, some j => .ok (a.get i j)
  | _, _ => .error .indexError

/-- The points treated by the successive blocks, each with the relative positions of the neighbours which are added, in
the order of the code. -/
abbrev Step := (Int × Int) × List (Int × Int)

def corners (n0 n1 : Nat) : List Step :=
  [((0, 0), [(1, 0), (1, 1), (0, 1)]),                                              -- 16-23
   ((0, (n1 : Int) - 1), [(1, 0), (1, -1), (0, -1)]),                               -- 25-32
   (((n0 : Int) - 1, 0), [(-1, 0), (-1, 1), (0, 1)]),                               -- 34-41
   (((n0 : Int) - 1, (n1 : Int) - 1), [(-1, 0), (-1, -1), (0, -1)])]                -- 43-50

/-- `range(1, n - 1)` -/
def inner (n : Nat) : List Int := pyRange 1 ((n : Int) - 1) 1

/-- 53-63 -/
def upper (n1 : Nat) : List Step := (inner n1).map (fun i1 => ((0, i1), [(0, -1), (0, 1), (1, 1), (1, 0), (1, -1)]))
/-- 66-76 -/
def bottom (n0 n1 : Nat) : List Step :=
  (inner n1).map (fun i1 => (((n0 : Int) - 1, i1), [(0, -1), (0, 1), (-1, 1), (-1, 0), (-1, -1)]))
/-- 79-89 -/
def left (n0 : Nat) : List Step := (inner n0).map (fun i0 => ((i0, 0), [(-1, 0), (1, 0), (-1, 1), (0, 1), (1, 1)]))
/-- 92-102 -/
def right (n0 n1 : Nat) : List Step :=
  (inner n0).map (fun i0 => ((i0, (n1 : Int) - 1), [(-1, 0), (1, 0), (-1, -1), (0, -1), (1, -1)]))
/-- 105-115 -/
def core (n0 n1 : Nat) : List Step :=
  (inner n0).flatMap (fun i0 => (inner n1).map (fun i1 =>
    ((i0, i1), [(0, -1), (0, 1), (-1, 1), (1, 1), (-1, 0), (1, 0), (-1, -1), (1, -1)])))

def steps (n0 n1 : Nat) : List Step :=
  corners n0 n1 ++ upper n1 ++ bottom n0 n1 ++ left n0 ++ right n0 n1 ++ core n0 n1

/-- `arr_output` and `arr_nb_pts` -/
structure St where
  out : Nat → Nat → ℚ
  nb : Nat → Nat → Nat

/-- Sum of values read at positions relative to `(i0, i1)`. -/
def sumReads {α : Type} (f : α → ℚ) (a : Img α) (i0 i1 : Int) : List (Int × Int) → ℚ → Except PyErr ℚ
  | [], t => .ok t
  | d :: l, t => match pyGet a (i0 + d.1) (i1 + d.2) with
    | .error e => .error e
    | .ok v => sumReads f a i0 i1 l (t + f v)

/-- Number of points read which are not NaN. -/
def countReads (b : Img Bool) (i0 i1 : Int) : List (Int × Int) → Nat → Except PyErr Nat
  | [], t => .ok t
  | d :: l, t => match pyGet b (i0 + d.1) (i1 + d.2) with
    | .error e => .error e
    | .ok v => countReads b i0 i1 l (t + (if v then 1 else 0))

/-- One point: `a` is the array with zeros for NaN, `b` is `arr_is_not_nan`. -/
def step (a : Img ℚ) (b : Img Bool) (st : St) (s : Step) : Except PyErr St :=
  match pyIndex a.ny s.1.1, pyIndex a.nx s.1.2 with
  | some i, some j =>
    if b.get i j then
      match sumReads id a s.1.1 s.1.2 s.2 0 with
      | .error e => .error e
      | .ok t => match countReads b s.1.1 s.1.2 s.2 0 with
        | .error e => .error e
        | .ok n => .ok ⟨fun i' j' => if i' = i ∧ j' = j then t else st.out i' j',
            fun i' j' => if i' = i ∧ j' = j then n else st.nb i' j'⟩
    else .ok st
  | _, _ => .error .indexError

def runSteps (a : Img ℚ) (b : Img Bool) : List Step → St → Except PyErr St
  | [], st => .ok st
  | s :: l, st => match step a b st s with
    | .error e => .error e
    | .ok st => runSteps a b l st

/-- 5-125 `_mean_neighbors` -/
def meanNeighbors (a : Img ℚ) (b : Img Bool) : Except PyErr (Img (Option ℚ)) :=
  match runSteps a b (steps a.ny a.nx) ⟨fun _ _ => 0, fun _ _ => 0⟩ with
  | .error e => .error e
  | .ok st => .ok ⟨a.ny, a.nx, fun i j =>
      if b.get i j = false ∨ st.nb i j = 0 then none else some (st.out i j / (st.nb i j : ℚ))⟩

/-- 128-155 `mean_neighbors_xy`, on 2D arrays (143-144, 155: `reshape`). -/
def meanNeighborsXY (dx dy : Img (Option ℚ)) : Except PyErr (Img (Option ℚ) × Img (Option ℚ)) :=
  let b : Img Bool := ⟨dx.ny, dx.nx, fun i j => (dx.get i j).isSome && (dy.get i j).isSome⟩
  let zero := fun (d : Img (Option ℚ)) => (⟨dx.ny, dx.nx, fun i j => if b.get i j then (d.get i j).getD 0 else 0⟩ : Img ℚ)
  match meanNeighbors (zero dx) b with
  | .error e => .error e
  | .ok mx => match meanNeighbors (zero dy) b with
    | .error e => .error e
    | .ok my => .ok (mx, my)

end Verif.MeanNeighbors
