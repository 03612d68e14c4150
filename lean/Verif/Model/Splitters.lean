import Verif.Py.Basic

/-!
# Model of `topologies/splitters.py`
-/

namespace Verif.Splitters

open Verif

/-- `/repo/src/fluidimage/topologies/splitters.py:40-42`:
```
num_elems_vs_ipart = [num_elems_per_parts_approx] * num_parts
for ipart in range(remainder):
    num_elems_vs_ipart[ipart] += 1
```
-/
def numElemsVsIpart (approx remainder numParts : Nat) : List Nat :=
  (List.range remainder).foldl (fun l ipart => l.modify ipart (· + 1)) (List.replicate numParts approx)

/-- `/repo/src/fluidimage/topologies/splitters.py:46-51`: the loop computing the `(start, stop, step)`
of each part. -/
def rangesLoop (step0 : Int) : Int → List Nat → List (Int × Int × Int)
  | _, [] => []
  | start, n :: ns =>
    let stop := start + n * step0
    (start, stop, step0) :: rangesLoop step0 stop ns

/-- `/repo/src/fluidimage/topologies/splitters.py:30-53` `split_range`.
`num_parts` is a natural number here (a negative number of processes is never given by the executors).
The two `assert` are modelled by error branches. -/
def splitRange (start0 stop0 step0 : Int) (numParts : Nat) : Except PyErr (List (Int × Int × Int)) :=
  if step0 = 0 then .error .valueError            -- range(.., .., 0)
  else if numParts = 0 then .error .zeroDivisionError  -- num_elems // 0
  else
    let numElems := rangeLen start0 stop0 step0
    let approx := numElems / numParts
    let remainder := numElems % numParts
    if numElems ≠ approx * numParts + remainder then .error .assertionError
    else
      let sizes := numElemsVsIpart approx remainder numParts
      if sizes.sum ≠ numElems then .error .assertionError
      else .ok (rangesLoop step0 start0 sizes)

/-- Python slice `sequence[a:b]` for `0 ≤ a` and `0 ≤ b`. -/
def sliceNat {α : Type} (l : List α) (a b : Nat) : List α := (l.take b).drop a

/-- `/repo/src/fluidimage/topologies/splitters.py:56-65` `split_list`.  `num_parts = 0` with a non-empty
sequence gives `divmod(len, 0)`, a `ZeroDivisionError`. -/
def splitList {α : Type} (sequence : List α) (numParts : Nat) : Except PyErr (List (List α)) :=
  if sequence.isEmpty then .ok ((List.range numParts).map (fun _ => []))
  else
    let numParts := min numParts sequence.length
    if numParts = 0 then .error .zeroDivisionError
    else
      let k := sequence.length / numParts
      let m := sequence.length % numParts
      .ok ((List.range numParts).map
        (fun i => sliceNat sequence (i * k + min i m) ((i + 1) * k + min (i + 1) m)))

end Verif.Splitters
