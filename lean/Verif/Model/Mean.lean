import Verif.Model.Executor
import Mathlib.Data.Rat.Floor

/-!
# Model of the computation of a mean image

`/repo/src/fluidimage/topologies/mean.py`.  An array is a function from the pixels to their values.  Simplifications:
all the images have the same shape (numpy raises otherwise) and unsigned integer pixels; file names and the HDF5
format of the temporary files are not modelled (a temporary file is the couple which is written in it).
-/

namespace Verif.Mean
open Verif Verif.Exec

/-- A 2d array of unsigned integers. -/
abbrev Img (π : Type) := π → Nat

/-- The objects in the queues: paths in "paths", arrays in "arrays" (mean.py:71-88). -/
inductive Val (π : Type) where
  | path (p : List Char)
  | arr (a : Img π)

/-- `arr.astype(np.uint32)` (mean.py:132): values modulo 2^32. -/
def toUint32 {π : Type} (a : Img π) : Img π := fun x => a x % 2 ^ 32

/-- Sum of two arrays `np.uint32` (mean.py:108, 119): numpy wraps. -/
def add32 {π : Type} (a b : Img π) : Img π := fun x => (a x + b x) % 2 ^ 32

/-- State of the topology: the list `queue_tmp_arrays`, `self.results`, and the temporary file written by this process
(`tmp_sum{index_process:03d}.h5`), which contains an array and a number of images. -/
structure State (π : Type) where
  tmp : List (Img π × Nat)
  results : List Nat
  file : Option (Img π × Nat)

/-- mean.py:102-113 `reduce_queue_tmp_arrays4`: returns the new list and `self.results`.  `pop()` takes the last
element, hence the list is read from its end. -/
def reduce4 {π : Type} (l : List (Img π × Nat)) (results : List Nat) : List (Img π × Nat) × List Nat :=
  match h : l.reverse with
  | (a0, n0) :: (a1, n1) :: (a2, n2) :: (a3, n3) :: rest =>
    reduce4 ((add32 (add32 (add32 a0 a1) a2) a3, n0 + n1 + n2 + n3) :: rest.reverse)
      (results ++ List.replicate 3 (n0 + n1 + n2 + n3))
  | _ => (l, results)
termination_by l.length
decreasing_by
  have := congrArg List.length h
  simp only [List.length_reverse, List.length_cons] at this ⊢
  omega

/-- mean.py:115-123 `reduce_queue_tmp_arrays2`. -/
def reduce2 {π : Type} (l : List (Img π × Nat)) (results : List Nat) : List (Img π × Nat) × List Nat :=
  match h : l.reverse with
  | (a0, n0) :: (a1, n1) :: rest =>
    reduce2 ((add32 a0 a1, n0 + n1) :: rest.reverse) (results ++ [n0 + n1])
  | _ => (l, results)
termination_by l.length
decreasing_by
  have := congrArg List.length h
  simp only [List.length_reverse, List.length_cons] at this ⊢
  omega

/-- mean.py:130-132: all the arrays of the queue are moved to the temporary list.  An exception stored in the queue
(image which can not be read) has no attribute `astype`. -/
def collect {κ π : Type} : Dict κ (Except PyErr (Val π)) → List (Img π × Nat) →
    Except PyErr (List (Img π × Nat))
  | [], tmp => .ok tmp
  | (_, .ok (.arr a)) :: d, tmp => collect d (tmp ++ [(toUint32 a, 1)])
  | (_, .ok (.path _)) :: _, _ => .error .attributeError
  | (_, .error _) :: _, _ => .error .attributeError

/-- mean.py:125-160 `main`.  `nio` is `executor.nb_working_workers_io`, `none` if the executor does not have this
attribute. -/
def main {κ π : Type} (nio : Option Nat) (q : Queues κ (Val π) PyErr) (s : State π) :
    Except PyErr (Queues κ (Val π) PyErr × State π × List (Event κ (Val π) PyErr)) :=
  match collect (q 1) s.tmp with
  | .error e => .error e
  | .ok tmp =>
    let r4 := reduce4 tmp s.results
    let q' := upd q 1 []
    if (q 0).isEmpty && (nio == none || nio == some 0) then
      let r2 := reduce2 r4.1 r4.2
      match r2.1 with
      | [] => .ok (q', ⟨[], r2.2, s.file⟩, [])
      | [(arr, n)] => .ok (q', ⟨[], r2.2, some (arr, n)⟩, [])
      | _ => .error .assertionError
    else .ok (q', ⟨r4.1, r4.2, s.file⟩, [])

/-- mean.py:71-95: the queues "paths" (0) and "arrays" (1), the list "tmp_arrays" (part of the state), and the works
`read_array` (`imread`, kind "io") and `main` (kind "global", which runs when one of its three input queues is not
empty; no output queue). -/
def topology {κ π : Type} (imread : List Char → Except PyErr (Img π)) : Topology κ (Val π) PyErr (State π) where
  nq := 2
  works :=
    [.item 0 (some 1) true (fun _ v =>
      match v with
      | .path p => match imread p with
        | .ok a => .ok (.arr a)
        | .error e => .error e
      | .arr _ => .error .typeError),
     .glob (fun q s => !(q 0).isEmpty || !(q 1).isEmpty || !s.tmp.isEmpty) (fun _ => none) main]
  auxEmpty := fun s => s.tmp.isEmpty

/-- topologies/base.py:617-658 `fill_queue_paths`: the queue of the paths, filled with the key and the path of each
image. -/
def initQueues {κ π : Type} (paths : List (κ × List Char)) : Queues κ (Val π) PyErr :=
  fun i => if i = 0 then paths.map (fun kp => (kp.1, .ok (.path kp.2))) else []

/-- mean.py:73, 97: state at the beginning. -/
def State.init (π : Type) : State π := ⟨[], [], none⟩

/-- mean.py:162-178 `final_seq_work`, for the content of the temporary files, in the order of their names; `results`
is the value of `self.results`; `rnd` is the rounding of a division in double precision; the result has `b`-bit
unsigned pixels (`astype(self.original_dtype)` drops the fractional part). -/
def finalSeqWork {π : Type} (rnd : ℚ → ℚ) (b : Nat) (files : List (Img π × Nat)) (results : List Nat) :
    Except PyErr (Img π × List Nat) :=
  let r4 := reduce4 files results
  let r2 := reduce2 r4.1 r4.2
  match r2.1 with
  | [(arr, n)] => .ok (fun x => ⌊rnd ((arr x : ℚ) / n)⌋.toNat % 2 ^ b, r2.2 ++ [n])
  | _ => .error .assertionError

end Verif.Mean
