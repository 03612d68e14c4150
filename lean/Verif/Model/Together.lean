import Verif.Model.WholeRun
import Verif.Model.WholeImages

/-!
# Several computations at the same time in the same directory

Nothing in the code prevents several computations of the same series in the same directory at the same time (for example two jobs of a
cluster, or a computation launched in mode "complete" while the first one is still running): the topologies only look at the files
which exist (topologies/base.py 543-586 and 600-650, piv.py 166-173), the results have no lock, and each process writes the files of what
it computes (topologies/piv.py 161-164, image2image.py 123-129, bos.py 157-160).  The directories and the lock files of the jobs are in
`JobDir` (C19).

Simplification: a file is written at once.  In particular two computations do not write the same file during overlapping intervals.
-/

namespace Verif.Together
open Verif.Exec Verif.TryWork Verif.ResultsFiles Verif.Complete Verif.WholeRun

/-- One of the computations: its executor, its mode, and if it reaches its end (or is killed, at any time). -/
structure Launch where
  x : Executor
  m : Mode
  ended : Bool
deriving DecidableEq, Repr

/-- The writes of all the computations, in the order of time: the number of the computation, and what is written. -/
abbrev History (ω : Type) := List (Nat × ω)

/-- All the writes of the `t` first ones. -/
def History.upTo {ω : Type} (h : History ω) (t : Nat) : List ω := (h.take t).map Prod.snd

/-- The writes of one computation. -/
def History.of {ω : Type} (h : History ω) (i : Nat) : List ω := (h.filter fun e => e.1 = i).map Prod.snd

/-! ## PIV -/

/-- What a computation of the PIV does (topologies/piv.py 159-262; see `WholeRun.Computation.Runs` for one computation alone): it looks
at the directory when `t0` files have been written by all the computations, and each of its processes starts at any later time. -/
def Piv.does {F : Type} (K : WholeRun.Computation F) (start stop step : Int) (c : Launch) (dir : Nat → Files Txt (Result F)) (t0 : Nat)
    (l : List (Int × Result F)) : Prop :=
  ∃ ps, parts c.x (K.selection start stop step (dir t0) c.m) = .ok ps ∧ ∃ logs, Interleaving (logs.map K.saves) l ∧
    List.Forall₂ (fun part log => ∃ t, t0 ≤ t ∧
      (if c.ended then K.process c.x else K.processKilled c.x) (K.computed c.x c.m part (dir t)) log) ps logs

/-- Several computations of the same series, in the same directory, from `d` to `d'`: each one is launched at any time. -/
def Piv.together {F : Type} (K : WholeRun.Computation F) (start stop step : Int) (cs : List Launch) (d : Files Txt (Result F))
    (h : History (Int × Result F)) (d' : Files Txt (Result F)) : Prop :=
  (∀ e ∈ h, e.1 < cs.length) ∧ d' = K.write d (h.map Prod.snd) ∧
  ∀ i c, cs[i]? = some c → ∃ t0, (∀ e ∈ h.take t0, e.1 ≠ i) ∧
    Piv.does K start stop step c (fun t => K.write d (h.upTo t)) t0 (h.of i)

/-! ## Images (image2image, BOS) -/

/-- What a computation of images does (topologies/image2image.py 71-150, bos.py 93-189; see `WholeImages.Computation.Runs`): it looks at
the directory when `t0` files have been written. -/
def Images.does {V : Type} (K : WholeImages.Computation V) (c : Launch) (dir : Nat → Files Txt V) (t0 : Nat) (l : List (Txt × V)) :
    Prop :=
  ∃ qs, K.queues (dir t0) c.m c.x = .ok qs ∧ ∃ logs, Interleaving (logs.map K.saves) l ∧
    List.Forall₂ (if c.ended then K.process c.x else K.processKilled c.x) qs logs

/-- Several computations of the same images, in the same directory. -/
def Images.together {V : Type} (K : WholeImages.Computation V) (cs : List Launch) (d : Files Txt V) (h : History (Txt × V))
    (d' : Files Txt V) : Prop :=
  (∀ e ∈ h, e.1 < cs.length) ∧ d' = K.write d (h.map Prod.snd) ∧
  ∀ i c, cs[i]? = some c → ∃ t0, (∀ e ∈ h.take t0, e.1 ≠ i) ∧ Images.does K c (fun t => K.write d (h.upTo t)) t0 (h.of i)

end Verif.Together
