import Verif.Spec.Chain

/-!
# Specification: what has to happen to the images and to the groups of images

Written without queues, executors or schedules.
-/

namespace Verif.Spec
open Verif.Exec

variable {κ α ε : Type}

/-- The image obtained from the path: the works are applied one after the other, up to the first error. -/
def imageOf (k : κ) : List (ChainWork κ α ε) → Except ε α → Except ε α
  | [], r => r
  | _ :: _, .error e => .error e
  | c :: ws, .ok v => imageOf k ws (c.f k v)

/-- The events of the image `k`: the works are called one after the other, up to the first error, which is reported
once.  The first work is the work number `w`. -/
def imageEvents (k : κ) : Nat → List (ChainWork κ α ε) → Except ε α → List (Event κ α ε)
  | _, [], _ => []
  | _, _ :: _, .error _ => []
  | w, c :: ws, .ok v =>
    match c.f k v with
    | .ok r => .call w k v :: imageEvents k (w + 1) ws (.ok r)
    | .error e => [.call w k v, .failed w k e]

/-- The couple of arrays of two images: the error of the first image which could not be obtained, or the couple. -/
def coupleOf (make : α × α → Except ε α) (r0 r1 : Except ε α) : Except ε α :=
  match r0, r1 with
  | .error e, _ => .error e
  | .ok _, .error e => .error e
  | .ok a0, .ok a1 => make (a0, a1)

/-- The events of the key `k` due to the works whose numbers satisfy `sel`. -/
def eventsOf [DecidableEq κ] (sel : Nat → Bool) (k : κ) (log : List (Event κ α ε)) : List (Event κ α ε) :=
  log.filter (fun e =>
    match e with
    | .call w k' _ => sel w && decide (k' = k)
    | .failed w k' _ => sel w && decide (k' = k)
    | .dropped w k' _ => sel w && decide (k' = k)
    | .note w k' _ => sel w && decide (k' = k))

/-- The list of the elements, each one at the place of its first occurrence. -/
def firstOccurrences [DecidableEq κ] (l : List κ) : List κ :=
  l.foldl (fun acc x => if x ∈ acc then acc else acc ++ [x]) []

/-- The order in which the images of a series of groups are loaded. -/
def loadOrder [DecidableEq κ] (series : List (κ × List κ)) : List κ := firstOccurrences (series.flatMap (fun s => s.2))

/-- When the images `loaded` are loaded, the images which have to wait for other ones: those of a group which has an
image which is not loaded. -/
def waiting [DecidableEq κ] (series : List (κ × List κ)) (loaded : List κ) : List κ :=
  loaded.filter (fun n => series.any (fun s => decide (n ∈ s.2) && s.2.any (fun n' => decide (n' ∉ loaded))))

/-- When images are loaded in the order of the series, fewer than `b` images are waiting at any time before the
end. -/
def WaitingBelow [DecidableEq κ] (series : List (κ × List κ)) (b : Nat) : Prop :=
  ∀ loaded rest, loadOrder series = loaded ++ rest → rest ≠ [] → (waiting series loaded).length < b

end Verif.Spec
