import Verif.Model.Groups
import Verif.Model.TimeFormat

/-!
# The example topology: every image is combined with itself and saved (`/repo/src/fluidimage/topologies/example.py`)
-/

namespace Verif.ExampleTopology
open Verif Verif.Exec Verif.Text

/-- An image of type uint8: the rows of pixels.  (The values of pixels are natural numbers; products are taken modulo
256, as numpy does.) -/
abbrev Image := List (List Nat)

/-- The values in the queues of the topology. -/
inductive Val where
  /-- a file name (queue "names images") -/
  | name (n : List Char)
  /-- the item `[key, (name, name)]` of the queue "names couples" (here a list of pairs key, name, of length 1) -/
  | couple (l : List (List Char × List Char))
  /-- an array (queue "arrays") -/
  | array (a : Image)
  /-- `[key, array, array]` (queues "couples arrays" and "queue cpu1") -/
  | arrays (key : List Char) (a b : Image)
  /-- `(key, array)` (queue "queue cpu2") -/
  | result (key : List Char) (a : Image)
  /-- `None` -/
  | none
  deriving DecidableEq

/-- The product of two uint8 arrays of the same shape. -/
def mulImages (a b : Image) : Image := List.zipWith (List.zipWith fun x y => x * y % 256) a b

/-- `for _ in range(n): array1 = array1 * array2`. -/
def mulLoop : Nat → Image → Image → Image
  | 0, a, _ => a
  | n + 1, a, b => mulLoop n (mulImages a b) b

/-- `/repo/src/fluidimage/topologies/example.py:26-35` `cpu1`: `10_000_000 // nloops` raises when `nloops` is zero (the
loop on `result` only spends time), then the loop of products; `range` of a negative number is empty. -/
def cpu1 (a b : Image) (nloops : Int) : Except PyErr (Image × Image) :=
  if nloops = 0 then .error .zeroDivisionError
  else
    let a := mulLoop nloops.toNat a b
    .ok (a, a)

/-- `/repo/src/fluidimage/topologies/example.py:38-47` `cpu2`. -/
def cpu2 (a b : Image) (nloops : Int) : Except PyErr Image :=
  if nloops = 0 then .error .zeroDivisionError
  else .ok (mulLoop nloops.toNat a b)

/-- `"Karman_02_00"` -/
def badKey : List Char := ['K', 'a', 'r', 'm', 'a', 'n', '_', '0', '2', '_', '0', '0']

/-- `"Karman_03.bmp"` -/
def badName : List Char := ['K', 'a', 'r', 'm', 'a', 'n', '_', '0', '3', '.', 'b', 'm', 'p']

/-- `/repo/src/fluidimage/topologies/example.py:50-55` `func1_for_partial`. -/
def func1 (nloops : Int) : Val → Except PyErr Val
  | .arrays key a b =>
    if key = badKey then .error .valueError
    else
      match cpu1 a b nloops with
      | .error e => .error e
      | .ok (a, b) => .ok (.arrays key a b)
  | _ => .error .typeError

/-- `/repo/src/fluidimage/topologies/example.py:58-61` `func2_for_partial`. -/
def func2 (nloops : Int) : Val → Except PyErr Val
  | .arrays key a b =>
    match cpu2 a b nloops with
    | .error e => .error e
    | .ok a => .ok (.result key a)
  | _ => .error .typeError

/-- `/repo/src/fluidimage/topologies/example.py:175-180` `TopologyExample.read_array`; `imread` is
`fluidimage.util.imread` of the file of this name in the directory of the images. -/
def readArray (imread : List Char → Except PyErr Image) : Val → Except PyErr Val
  | .name n =>
    if n = badName then .error .valueError
    else
      match imread n with
      | .error e => .error e
      | .ok a => .ok (.array a)
  | _ => .error .typeError

/-- `/repo/src/fluidimage/topologies/example.py:199-203` `TopologyExample.save`: `savemat file array` is
`scipy.io.savemat(self.path_dir_result / (key + ".h5"), mdict={"array": arr})`. -/
def save (savemat : List Char → Image → Except PyErr Unit) : Val → Except PyErr Val
  | .result key a =>
    match savemat (key ++ ['.', 'h', '5']) a with
    | .error e => .error e
    | .ok _ => .ok .none
  | _ => .error .typeError

/-- `name.split(".bmp")[0]`: what precedes the first ".bmp" (everything if there is none). -/
def stem : List Char → List Char
  | [] => []
  | c :: cs => if ['.', 'b', 'm', 'p'].isPrefixOf (c :: cs) then [] else c :: stem cs

/-- `/repo/src/fluidimage/topologies/example.py:167`: `name.split(".bmp")[0] + f"_{ind:02}"`. -/
def keyOfName (name : List Char) (ind : Nat) : List Char := stem name ++ '_' :: TimeFormat.pad2 ind

/-- `/repo/src/fluidimage/topologies/example.py:165-168`: the inner loop of `fill_names`; `names` is
`sorted(os.listdir(self.path_dir_src))`. -/
def fillRound (ind : Nat) : List (List Char) → Dict (List Char) (List Char) → Dict (List Char) (List Char)
  | [], d => d
  | n :: names, d => fillRound ind names (d.set (keyOfName n ind) n)

/-- `/repo/src/fluidimage/topologies/example.py:164`: `for ind in range(...)`. -/
def fillRounds (names : List (List Char)) : List Nat → Dict (List Char) (List Char) → Dict (List Char) (List Char)
  | [], d => d
  | ind :: inds, d => fillRounds names inds (fillRound ind names d)

/-- `/repo/src/fluidimage/topologies/example.py:162-168` `TopologyExample.fill_names`: the items (key, name) of the queue
"names images". -/
def fillNames (multiplicator : Int) (names : List (List Char)) : Dict (List Char) (List Char) :=
  fillRounds names (List.range multiplicator.toNat) []

/-- `/repo/src/fluidimage/topologies/example.py:170-172` `TopologyExample.fill_couples_names`: the items of the queue
"names couples". -/
def fillCouplesNames : Dict (List Char) (List Char) → Dict (List Char) (Except PyErr Val) →
    Dict (List Char) (Except PyErr Val)
  | [], d => d
  | (key, name) :: todo, d => fillCouplesNames todo (d.set key (.ok (.couple [(key, name)])))

/-- `/repo/src/fluidimage/topologies/example.py:187-197`: the body of the loop of `fill_couples_arrays`. -/
def couplesStep (key : List Char) (array : Except PyErr Val) (s : GroupQueues (List Char) Val PyErr) :
    GroupQueues (List Char) Val PyErr :=
  match s.groups.get? key with
  | none => s
  | some _ =>
    { arrays := s.arrays.erase key
      groups := s.groups.erase key
      out := s.out.set key
        (match array with
        | .error e => .error e
        | .ok (.array a) => .ok (.arrays key a a)
        | .ok _ => .error .typeError) }

/-- `/repo/src/fluidimage/topologies/example.py:187`: `for key, array in list(queue_arrays.items())`. -/
def couplesLoop : Dict (List Char) (Except PyErr Val) → GroupQueues (List Char) Val PyErr →
    GroupQueues (List Char) Val PyErr
  | [], s => s
  | (key, array) :: todo, s => couplesLoop todo (couplesStep key array s)

/-- `/repo/src/fluidimage/topologies/example.py:182-197` `TopologyExample.fill_couples_arrays`. -/
def fillCouplesArrays (s : GroupQueues (List Char) Val PyErr) : Except PyErr (GroupQueues (List Char) Val PyErr) :=
  .ok (couplesLoop s.arrays s)

/-- `/repo/src/fluidimage/topologies/example.py:108-160`: the queues (0 "names couples", 1 "names images", 2 "arrays",
3 "couples arrays", 4 "queue cpu1", 5 "queue cpu2"; the first two are created in the other order in the code) and the
works (0 "read array", 1 "fill couples arrays", 2 "cpu1", 3 "cpu2", 4 "save"). -/
def topology (imread : List Char → Except PyErr Image) (savemat : List Char → Image → Except PyErr Unit)
    (nloops : Int) : Topology (List Char) Val PyErr Unit :=
  groupTopology [⟨true, fun _ => readArray imread⟩]
    [⟨false, fun _ => func1 nloops⟩, ⟨false, fun _ => func2 nloops⟩, ⟨true, fun _ => save savemat⟩] fillCouplesArrays

/-- The queues after the two one-shot works "fill names" and "fill names couples". -/
def start (multiplicator : Int) (names : List (List Char)) : Queues (List Char) Val PyErr := fun i =>
  if i = 0 then fillCouplesNames (fillNames multiplicator names) []
  else if i = 1 then (fillNames multiplicator names).map (fun kv => (kv.1, .ok (.name kv.2)))
  else []

end Verif.ExampleTopology
