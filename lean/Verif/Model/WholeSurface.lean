import Verif.Model.SurfaceTracking
import Verif.Model.WholeRun

/-!
# A whole computation of surface tracking: executors and directory of the heights

`topologies/surface_tracking.py`, with the numbers computed by the works given as parameters: they are the functions of C84
(`process_frame_func`, without `crop_edge`: with it, a frame depends on the previous calls), C30 (`correctcouple`), C85
(`calculheight_func`) and C86 (`set_borders_zero_func`).  Simplifications: each file is written at once (see C63), and the messages
and the file of parameters are not here.
-/

namespace Verif.WholeSurface
open Verif Verif.Exec Verif.TryWork Verif.ResultsFiles Verif.Complete Verif.WholeRun

/-- What defines a computation: the content of the image files, the directory of the images, the function "image to image", the
functions of the works (`α` images, `φ` phases with the borders, `η` heights with the borders, `β` arrays which are saved), whether an
array can be written, and the names of the images of the serie. -/
structure Computation (α φ η β : Type) where
  imread : Txt → Except PyErr α
  dir : Txt
  f : Option (Txt → α → Except PyErr α)
  process : α → Except PyErr φ
  correct : φ → φ → Except PyErr φ
  height : φ → Except PyErr η
  borders : η → Except PyErr β
  imsave : Txt → β → Except PyErr Unit
  names : List Txt

variable {α φ η β : Type}

/-- The values in the queues. -/
inductive Val (α φ η β : Type) where
  | names (l : List Key)
  | path (p : Txt)
  | image (a : α)
  | phase (p : φ)
  | couple (mod angle : Except PyErr φ)
  | height (h : η)
  | final (b : β)

/-- topologies/surface_tracking.py 157-163: the work "read_array". -/
def readWork (K : Computation α φ η β) (_ : Key) : Val α φ η β → Except PyErr (Val α φ η β)
  | .path p => match K.imread p with
    | .error e => .error e
    | .ok a => .ok (.image a)
  | _ => .error .typeError

/-- topologies/surface_tracking.py 165-176: the work "image2image" (kind "eat key value"). -/
def im2imWork (f : Txt → α → Except PyErr α) : Key → Val α φ η β → Except PyErr (Val α φ η β)
  | .name n, .image a => match f n a with
    | .error e => .error e
    | .ok b => .ok (.image b)
  | _, _ => .error .typeError

/-- topologies/surface_tracking.py 178-183: the work "process_frame". -/
def processWork (K : Computation α φ η β) (_ : Key) : Val α φ η β → Except PyErr (Val α φ η β)
  | .image a => match K.process a with
    | .error e => .error e
    | .ok p => .ok (.phase p)
  | _ => .error .typeError

/-- An item of the queues of phases, in a couple: an exception object is put in the tuple as it is (surface_tracking.py 238-241,
248-251). -/
def phaseOf : Except PyErr (Val α φ η β) → Except PyErr φ
  | .ok (.phase p) => .ok p
  | .ok _ => .error .typeError
  | .error e => .error e

/-- What `make_couples` uses. -/
def trackOps : TrackOps Key (Val α φ η β) PyErr where
  tup := .names
  namesOf := fun v => match v with
    | .names l => l
    | _ => []
  namesOf_tup := fun _ => rfl
  pair := fun x y => .couple (phaseOf x) (phaseOf y)
  indexError := .indexError

/-- topologies/surface_tracking.py 193-198, works/surface_tracking.py 670-683: the work "correct_couple_of_phases".  The statement
`((anglemod, shapemod), (angle, shape)) = queue_couple` raises `TypeError` when one of the two objects is an exception. -/
def correctWork (K : Computation α φ η β) (_ : Key) : Val α φ η β → Except PyErr (Val α φ η β)
  | .couple (.ok mod) (.ok angle) => match K.correct mod angle with
    | .error e => .error e
    | .ok p => .ok (.phase p)
  | _ => .error .typeError

/-- topologies/surface_tracking.py 200-205: the work "calcul_height". -/
def heightWork (K : Computation α φ η β) (_ : Key) : Val α φ η β → Except PyErr (Val α φ η β)
  | .phase p => match K.height p with
    | .error e => .error e
    | .ok h => .ok (.height h)
  | _ => .error .typeError

/-- topologies/surface_tracking.py 207-212: the work "set_borders_zero". -/
def bordersWork (K : Computation α φ η β) (_ : Key) : Val α φ η β → Except PyErr (Val α φ η β)
  | .height h => match K.borders h with
    | .error e => .error e
    | .ok b => .ok (.final b)
  | _ => .error .typeError

/-- topologies/surface_tracking.py 214-219, 257-261: the work "save" (kind "eat key value"). -/
def saveWork (K : Computation α φ η β) : Key → Val α φ η β → Except PyErr (Val α φ η β)
  | .name n, .final b => match K.imsave n b with
    | .error e => .error e
    | .ok _ => .ok (.final b)
  | _, _ => .error .typeError

/-- The topology (surface_tracking.py 135-219) -/
def Computation.topology (K : Computation α φ η β) : Topology Key (Val α φ η β) PyErr Unit :=
  surfaceTopology trackOps (readWork K) (K.f.map im2imWork) (processWork K) (correctWork K) (heightWork K) (bordersWork K) (saveWork K)

/-- The path of the image of a key (surface_tracking.py 276). -/
def pathOf (dir : Txt) : Key → Val α φ η β
  | .name n => .path (dir ++ ['/'] ++ n)
  | .idx _ => .path []

/-- The keys of the queue of couples are the indices of the series (surface_tracking.py 315-317); only their differences matter. -/
def coupleKey (i : Nat) : Key := .idx i

/-- surface_tracking.py 277-279: in mode "complete", the images whose results exist. -/
def present (m : Mode) (d : Files Txt β) : Key → Bool
  | .name n => match m with
    | .complete => (d n).isSome
    | .recompute => false
  | .idx _ => false

/-- The queues after the first work (surface_tracking.py 263-317). -/
def Computation.queues (K : Computation α φ η β) (m : Mode) (d : Files Txt β) : Queues Key (Val α φ η β) PyErr :=
  trackStart trackOps coupleKey (pathOf K.dir) (present m d) (K.names.map .name)

/-- The files written, in order (surface_tracking.py 257-261). -/
def Computation.saves (K : Computation α φ η β) (log : List (Event Key (Val α φ η β) PyErr)) : List (Txt × β) :=
  log.filterMap fun e => match e with
    | .call _ (.name n) (.final b) => match K.imsave n b with
      | .ok _ => some (n, b)
      | .error _ => none
    | _ => none

/-- The directory after some files have been written; the name of the file is `Path(key).name` (surface_tracking.py 259-260). -/
def write (d : Files Txt β) (l : List (Txt × β)) : Files Txt β :=
  l.foldl (fun d x => Complete.save d (pathName x.1) x.2) d

/-- `n` rounds of the sequential executor (exec_sequential.py 28-70). -/
def rounds {σ : Type} (T : Topology Key (Val α φ η β) PyErr σ) (c : Cfg) :
    Nat → SState Key (Val α φ η β) PyErr σ → SState Key (Val α φ η β) PyErr σ
  | 0, s => s
  | n + 1, s => rounds T c n (seqWorks c 0 T.works s)

/-- What is done by a computation which reaches its end, for any limits and any schedule.  The multi-executors execute
nothing (see `begins`). -/
def Computation.Ended (K : Computation α φ η β) (m : Mode) (d : Files Txt β) (log : List (Event Key (Val α φ η β) PyErr)) :
    Executor → Prop
  | .sequential => ∃ (c : Cfg) (n : Nat) (s : SState Key (Val α φ η β) PyErr Unit),
      seqLoop K.topology c n (SState.init (K.queues m d) ()) = some s ∧ s.crashed = none ∧ log = s.log
  | .async => ∃ c ls s, ARun K.topology c (AState.init (K.queues m d) ()) ls s ∧ s.stop = true ∧ log = s.log
  | .multiAsync _ => K.names.length ≤ 1 ∧ log = []
  | .multiSubproc _ => False

/-- The same when the computation is killed at any time, or is stopped by an exception (`stop_if_error`), or (asynchronous executors)
has received the stop signal. -/
def Computation.Killed (K : Computation α φ η β) (m : Mode) (d : Files Txt β) (log : List (Event Key (Val α φ η β) PyErr)) :
    Executor → Prop
  | .sequential => ∃ (c : Cfg) (n : Nat), log <+: (rounds K.topology c n (SState.init (K.queues m d) ())).log
  | .async => ∃ c xls s, XRun K.topology c (XState.init (K.queues m d) ()) xls s ∧ log = s.a.log
  | _ => False

/-- A computation which reaches its end. -/
def Computation.Complete (K : Computation α φ η β) (x : Executor) (m : Mode) (d d' : Files Txt β) : Prop :=
  ∃ log, K.Ended m d log x ∧ d' = write d (K.saves log)

/-- A computation which is interrupted. -/
def Computation.Interrupted (K : Computation α φ η β) (x : Executor) (m : Mode) (d d' : Files Txt β) : Prop :=
  ∃ log, K.Killed m d log x ∧ d' = write d (K.saves log)

/-- The executor used by `topology.compute(executor=...)`: `none` is the default, the first of the multi-executors (topologies/base.py
372-376, executors/__init__.py: on Linux), with `n` processes. -/
def chosen (n : Nat) : Option Executor → Executor
  | none => .multiAsync n
  | some x => x

/-- What an executor does before any work.  The topology has an attribute `series` (one couple of consecutive images for each index) and
no attribute `Splitter`: the multi-executors raise `ValueError` (multi_exec_subproc.py 29-35; multi_exec_async.py 63-64, 114-123), except
`multi_exec_async` without any couple, which does nothing (base.py 345-363, 482-489). -/
def Computation.begins (K : Computation α φ η β) : Executor → Except PyErr Unit
  | .multiAsync _ => if K.names.length - 1 = 0 then .ok () else .error .valueError
  | .multiSubproc _ => .error .valueError
  | .sequential => .ok ()
  | .async => .ok ()

/-- `topology.compute(executor=...)`: either it raises, or a computation reaches its end. -/
def Computation.Computes (K : Computation α φ η β) (n : Nat) (x : Option Executor) (m : Mode) (d : Files Txt β) :
    Except PyErr (Files Txt β) → Prop
  | .error e => K.begins (chosen n x) = .error e
  | .ok d' => K.begins (chosen n x) = .ok () ∧ K.Complete (chosen n x) m d d'

end Verif.WholeSurface
