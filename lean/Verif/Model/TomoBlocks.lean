import Verif.Py.Basic

/-!
# Model of the blocks of a tomographic reconstruction

`/repo/src/fluidimage/reconstruct/tomo/mlos.py`: 77-81 (the arrays of dask and `map_blocks`), 189-207
(`TomoMLOSCV.reconstruct`: the size of the blocks), 210-213 (`_estimate_max_array_size`).

dask is represented by what it documents: `da.from_array(x, chunks=c)` cuts the array in blocks of `c` values, the last one
being smaller when the length is not a multiple of `c` (a size 0 gives a division by zero for an array which is not empty),
and `da.map_blocks(f, x, y)` applies `f` to the blocks of the same place and joins the results.
-/

namespace Verif.TomoBlocks
open Verif

/-- mlos.py 210-213: `mem.available // nbytes`, for values of `itemsize` bytes. -/
def maxArraySize (available itemsize : Nat) : Nat := available / itemsize

/-- mlos.py 201-207: the size of the blocks, from the argument `chunks`, the number of voxels, `os.cpu_count()` (which can be
`None`), the available memory and the size of a value. -/
def chunkSize (chunks : Option Nat) (n : Nat) (cpus : Option Nat) (available itemsize : Nat) : Except PyErr Nat :=
  match chunks with
  | some c => .ok c
  | none =>
    match cpus with
    | none => .error .typeError
    | some k =>
      if k = 0 then .error .zeroDivisionError
      else
        let c := n / k
        let nmax := maxArraySize available itemsize / 6
        if c > nmax then .ok nmax else .ok c

/-- dask: the sizes of the blocks. -/
def blockSizes (n c : Nat) : Except PyErr (List Nat) :=
  if n = 0 then .ok [0]
  else if c = 0 then .error .zeroDivisionError
  else .ok (List.replicate (n / c) c ++ if n % c = 0 then [] else [n % c])

/-- dask: the blocks. -/
def cut {α : Type} : List Nat → List α → List (List α)
  | [], _ => []
  | s :: ss, l => l.take s :: cut ss (l.drop s)

/-- mlos.py 78-81: `map_blocks(interp, x_pix, y_pix)`; `interp` gives the values for the positions of a block. -/
def mapBlocks {α β : Type} (interp : List α → List α → List β) (sizes : List Nat) (x y : List α) : List β :=
  (List.zipWith interp (cut sizes x) (cut sizes y)).flatten

/-- mlos.py 189-207, 77-81: the values of the voxels. -/
def values {α β : Type} (interp : List α → List α → List β) (chunks : Option Nat) (cpus : Option Nat)
    (available itemsize : Nat) (x y : List α) : Except PyErr (List β) :=
  match chunkSize chunks x.length cpus available itemsize with
  | .error e => .error e
  | .ok c =>
    match blockSizes x.length c with
    | .error e => .error e
    | .ok sizes => .ok (mapBlocks interp sizes x y)

end Verif.TomoBlocks
