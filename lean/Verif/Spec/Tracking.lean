import Verif.Spec.Groups

/-!
# Specification: surface tracking

Written without queues, executors or schedules: the frames are corrected one after the other.
-/

namespace Verif.Spec
open Verif.Exec

variable {κ α ε : Type}

/-- The keys for which the work number `w` has been called, in the order of the calls. -/
def callOrder (w : Nat) (log : List (Event κ α ε)) : List κ :=
  log.filterMap (fun e =>
    match e with
    | .call w' k _ => if w' = w then some k else none
    | _ => none)

/-- The frames with their references: the reference of a frame is the corrected previous frame.  `ref` is the
reference of the first frame of the list, `frame k` are the angles of the frame `k`, and `correct k (pair ref x)` are
the angles `x` corrected with respect to `ref`. -/
def referencesFrom (pair : Except ε α → Except ε α → α) (correct : κ → α → Except ε α) (frame : κ → Except ε α) :
    Except ε α → List κ → List (κ × Except ε α)
  | _, [] => []
  | ref, k :: ks => (k, ref) :: referencesFrom pair correct frame (correct k (pair ref (frame k))) ks

/-- The first frame of the serie is corrected with respect to itself. -/
def references (pair : Except ε α → Except ε α → α) (correct : κ → α → Except ε α) (frame : κ → Except ε α) :
    List κ → List (κ × Except ε α)
  | [] => []
  | k :: ks => referencesFrom pair correct frame (frame k) (k :: ks)

/-- What has to happen to the frame `k`, whose reference is `ref`: it is read and processed (`ups`), it is corrected
with respect to the reference, the height is computed and saved (`downs`). -/
def trackEvents (ups : List (ChainWork κ α ε)) (pair : Except ε α → Except ε α → α) (correct : κ → α → Except ε α)
    (downs : List (ChainWork κ α ε)) (path : α) (k : κ) (ref : Except ε α) : List (Event κ α ε) :=
  let couple := pair ref (imageOf k ups (.ok path))
  imageEvents k 0 ups (.ok path) ++
    match correct k couple with
    | .ok r => .call (ups.length + 1) k couple :: itemEvents k (ups.length + 2) downs (.ok r)
    | .error e => .call (ups.length + 1) k couple :: .failed (ups.length + 1) k e ::
        itemEvents k (ups.length + 2) downs (.error e)

end Verif.Spec
