import Verif.Model.CorrelDirect

/-!
# Model of the correlation computed with CUDA

`/repo/src/fluidimage/calcul/correl_pycuda.py` (19-311 `nextpow2`, `correl_pycuda`), the two kernels
`/repo/src/fluidimage/calcul/correl.cu` (`cucorrelate`) and `/repo/src/fluidimage/calcul/reduction_kernel.cu`
(19-46 `reduce1`), and `/repo/src/fluidimage/calcul/correl.py` 416-451 `CorrelPyCuda`.

The threads of the graphics card run in any order: the order is an argument of the functions.  Numbers are rationals
(the code uses `float32`), unsigned integers are not bounded.  The memory of the card is a function of the address in an
array: it has a value at every address, also after the end of the array (what is there is arbitrary).  The norm (49)
is not modelled.  The images are assumed to be arrays of `float32`: otherwise their bytes are read as `float32`.
-/

namespace Verif.CorrelCuda
open Verif Verif.PivGrid Verif.Correl Verif.CorrelDirect

/-- An array in the memory of the card. -/
abbrev Mem := Nat → ℚ

/-- `a[i] = v` -/
def put (a : Mem) (i : Nat) (v : ℚ) : Mem := fun k => if k = i then v else a k

/-- 20-23: the loop of `nextpow2`; the first argument bounds the number of turns. -/
def powLoop : Nat → Nat → Nat → Nat
  | 0, n, _ => n
  | f + 1, n, i => if n < i then powLoop f (n * 2) i else n

/-- 19-23 `nextpow2` (the loop makes less than `i` turns). -/
def nextpow2 (i : Nat) : Nat := powLoop i 1 i

/-! ## The kernel `cucorrelate` -/

/-- The integers given to the kernel (`dispx` and `dispy` are not used by it).  A negative integer would be a large one for the
kernel: here it is 0 (there is none for the sizes of the theorems). -/
structure Args where
  nx0 : Nat
  nx1 : Nat
  ny0 : Nat
  nymax : Nat
  ny1dep : Nat
  ny0dep : Nat
  nx0dep : Nat
  nxmax : Nat
  nx1dep : Nat

/-- correl.cu 11-20: one thread. -/
def cucorrelate (a : Args) (im0 im1 : Mem) (ix iy : Nat) (o : Mem) : Mem :=
  let index := ix + a.nx0 * iy
  if ix < a.nxmax ∧ iy < a.nymax then
    put o index (im1 ((iy + a.ny1dep) * a.nx1 + (ix + a.nx1dep)) * im0 ((a.ny0dep + iy) * a.nx0 + a.nx0dep + ix))
  else if ix < a.nx0 ∧ iy < a.ny0 then put o index 0
  else o

/-- The threads of one launch, in the order of the list. -/
def runThreads (a : Args) (im0 im1 : Mem) : List (Nat × Nat) → Mem → Mem
  | [], o => o
  | t :: l, o => runThreads a im0 im1 l (cucorrelate a im0 im1 t.1 t.2 o)

/-! ## The kernel `reduce1` -/

/-- reduction_kernel.cu 34-39: what the thread `tid` does in one turn of the loop. -/
def addThread (T s tid : Nat) (sd : Mem) : Mem :=
  let index := 2 * s * tid
  if index < T then put sd index (sd index + sd (index + s)) else sd

/-- One turn of the loop, between two barriers: the threads in the order of the list. -/
def turn (T s : Nat) : List Nat → Mem → Mem
  | [], sd => sd
  | tid :: l, sd => turn T s l (addThread T s tid sd)

/-- reduction_kernel.cu 32-42: `for (s = 1; s < blockDim.x; s *= 2)`; `orders s` is the order of the threads in the
turn `s`; the first argument bounds the number of turns. -/
def treeLoop (T : Nat) (orders : Nat → List Nat) : Nat → Nat → Mem → Mem
  | 0, _, sd => sd
  | f + 1, s, sd => if s < T then treeLoop T orders f (s * 2) (turn T s (orders s) sd) else sd

/-- reduction_kernel.cu 31-45: the value written by a block of `T` threads which have loaded `sd`. -/
def blockValue (T : Nat) (orders : Nat → List Nat) (sd : Mem) : ℚ := treeLoop T orders T 1 sd 0

/-- What happens during a launch: thread `t` of the block `b` loads its element (27 of the kernel), or thread 0 of the
block `b` writes the result of the block (45). -/
inductive Ev where
  | load (b t : Nat)
  | store (b : Nat)
deriving DecidableEq

/-- The memory of the card during a launch: the array and the shared memory of each block. -/
structure Gpu where
  mem : Mem
  shared : Nat → Mem

/-- One event of a launch in which the array read and the array written are the same (129-135). -/
def evStep (T : Nat) (orders : Nat → Nat → List Nat) (g : Gpu) : Ev → Gpu
  | .load b t => { g with shared := fun c => if c = b then put (g.shared b) t (g.mem (b * T + t)) else g.shared c }
  | .store b => { g with mem := put g.mem b (blockValue T (orders b) (g.shared b)) }

/-- The events of a launch, in the order of the list. -/
def runEvents (T : Nat) (orders : Nat → Nat → List Nat) : List Ev → Gpu → Gpu
  | [], g => g
  | e :: l, g => runEvents T orders l (evStep T orders g e)

/-- What the card chooses for one launch. -/
structure Sched where
  events : List Ev
  orders : Nat → Nat → List Nat

/-- 129-135: a launch on `g_odata`, in place (the contents of the shared memories at the beginning are arbitrary). -/
def reduceInPlace (T : Nat) (c : Sched) (junk : Nat → Mem) (o : Mem) : Mem :=
  (runEvents T c.orders c.events ⟨o, junk⟩).mem

/-- 141-147: the last launch: one block, and the result in `g_sumdata`. -/
def reduceLast (T : Nat) (orders : Nat → List Nat) (o : Mem) : ℚ := blockValue T orders o

/-! ## The reductions -/

/-- `(n + t - 1) // t` -/
def blocksFor (n t : Nat) : Nat := (n + t - 1) / t

/-- 105-109: number of threads and of blocks of the first reduction of `n` elements. -/
def firstLaunch (n : Nat) : Nat × Nat :=
  let t := if n < 16 then nextpow2 n else 16
  (t, blocksFor n t)

/-- 136-140: number of threads and of blocks of the following reduction. -/
def nextLaunch (tb : Nat × Nat) : Nat × Nat :=
  let t := if tb.2 < 16 then nextpow2 tb.2 else tb.1
  (t, blocksFor tb.2 t)

/-- 128-147: the loop `while blocks_reduce != 1` and the last reduction.  `scheds k` are the choices of the card for the
`k`-th launch with these numbers of threads and blocks.  The first argument bounds the number of turns; `none`: the
loop is not finished. -/
def reduceLoop (scheds : Nat → Sched) (junk : Nat → Mem) : Nat → Nat → Nat × Nat → Mem → Option ℚ
  | 0, _, _, _ => none
  | f + 1, k, tb, o =>
    if tb.2 = 1 then some (reduceLast tb.1 ((scheds k).orders 0) o)
    else reduceLoop scheds junk f (k + 1) (nextLaunch tb) (reduceInPlace tb.1 (scheds k) junk o)

/-- 105-109, 128-147: the sum of `n` elements. -/
def reduceAll (scheds : Nat → Sched) (junk : Nat → Mem) (n : Nat) (o : Mem) : Option ℚ :=
  reduceLoop scheds junk (n + 1) 0 (firstLaunch n) o

/-! ## `correl_pycuda` -/

/-- A number of Python: `/` gives a `float` also for integers. -/
inductive Num where
  | int (n : Nat)
  | float (q : ℚ)

/-- 84: `max(nx0, ny0) / threads_per_block` -/
def blocksPerTile (nx0 ny0 : Nat) : Num := .float ((max nx0 ny0 : Nat) / 16)

/-- `grid=(n, n)`: PyCUDA converts the numbers to unsigned integers, which is refused for a `float`. -/
def gridOf : Num → Except PyErr Nat
  | .int n => .ok n
  | .float _ => .error .typeError

/-- An image in the memory of the card (88-89). -/
def flat (im : Img ℚ) : Mem := fun e => im.get (e / im.nx) (e % im.nx)

/-- 110-124: the arguments of the kernel, for the bounds of the loops (95-103, 152-155, 204-212, 260-263: they are those
of `correl_numpy`). -/
def argsOf (im0 im1 : Img ℚ) (b c : Bounds) : Args :=
  ⟨im0.nx, im1.nx, im0.ny, b.nmax.toNat, b.dep1.toNat, b.dep0.toNat, c.dep0.toNat, c.nmax.toNat, c.dep1.toNat⟩

/-- What the card chooses for one value of the correlation, and what is in its memory before. -/
structure Card where
  threads : List (Nat × Nat)
  scheds : Nat → Sched
  odata : Mem
  junk : Nat → Mem

/-- 105-149: one value of the correlation, when the kernel is launched. -/
def gpuCell (card : Card) (im0 im1 : Img ℚ) (b c : Bounds) : Option ℚ :=
  reduceAll card.scheds card.junk (im0.nx * im0.ny)
    (runThreads (argsOf im0 im1 b c) (flat im0) (flat im1) card.threads card.odata)

/-- 94-309: the values of the correlation in the order of their computation; the first launch with a grid which is not
accepted raises.  (The values themselves are those of `gpuCell`.) -/
def launches (grid : Except PyErr Nat) : List (Nat × Nat) → Except PyErr (List (Nat × Nat))
  | [] => .ok []
  | c :: l => match grid with
    | .error e => .error e
    | .ok g => match launches (.ok g) l with
      | .error e => .error e
      | .ok l' => .ok (c :: l')

/-- The indices of the correlation, in the order of the loops 94-309. -/
def indices (dmax : Nat) : List (Nat × Nat) :=
  (List.range (2 * dmax + 1)).flatMap (fun i => (List.range (2 * dmax + 1)).map (fun j => (i, j)))

/-- 26-311 `correl_pycuda` with the number of blocks `blocks` of the line 84; `cards i j` are the choices of the card for
the value `(i, j)`. -/
def correlWith (blocks : Num) (cards : Nat → Nat → Card) (im0 im1 : Img ℚ) (dmax : Nat) : Except PyErr Map :=
  match launches (gridOf blocks) (indices dmax) with
  | .error e => .error e
  | .ok _ => .ok ⟨2 * dmax + 1, 2 * dmax + 1, fun i j =>
      gpuCell (cards i j) im0 im1 (bounds im0.ny im1.ny dmax i) (bounds im0.nx im1.nx dmax j)⟩

/-- 26-311 `correl_pycuda` -/
def correlPycuda (cards : Nat → Nat → Card) (im0 im1 : Img ℚ) (dmax : Nat) : Except PyErr Map :=
  correlWith (blocksPerTile im0.nx im0.ny) cards im0 im1 dmax

/-- correl.py 423-444 `CorrelPyCuda._finalize_init`: the local variable is not defined when the argument is given. -/
def cudaInit (dmax : Option ℚ) (n0 n1 m0 m1 : Int) : Except PyErr Int :=
  match dmax with
  | some _ => .error .unboundLocalError
  | none =>
    let d := if n0 = m0 ∧ n1 = m1 then min n0 n1 / 2 else min (n0 - m0) (n1 - m1) / 2 - 1
    if d ≤ 0 then .error .valueError else .ok d

/-- correl.py 423-451: object `CorrelPyCuda` made for the shapes of the images, and its call. -/
def cudaCall (cards : Nat → Nat → Card) (dmax : Option ℚ) (im0 im1 : Img ℚ) : Except PyErr Map :=
  match cudaInit dmax im0.ny im0.nx im1.ny im1.nx with
  | .error e => .error e
  | .ok d => correlPycuda cards im0 im1 d.toNat

end Verif.CorrelCuda
