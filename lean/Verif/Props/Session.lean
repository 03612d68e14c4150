import Verif.Model.Session
import Verif.Model.Executor
import Mathlib.Data.List.Basic
import Mathlib.Tactic.Linarith
import Mathlib.Tactic.Ring

/-!
# C77, C78: what an executor leaves in the process, choice of the executor and of the limits
-/

namespace Verif
open Verif.Session

/-! ## C77 -/

/-- A computation which reaches its normal end: no exception before the end, and not a multi executor with nothing to do. -/
def EndsNormally (j : Job) : Prop := (∃ after, j.how = .ends after) ∧ (j.multi = true → j.n ≠ 0)

/-- The number of an executor is new in the process: no log file nor lock file has it. -/
def NewId (p : Proc) (id : Nat) : Prop := id ∉ p.openLogs ∧ id ∉ p.locks

/-- The process has the same streams, the same open log files and the same lock files. -/
def SameSession (p p' : Proc) : Prop :=
  p'.stdout = p.stdout ∧ p'.stderr = p.stderr ∧ p'.openLogs = p.openLogs ∧ p'.locks = p.locks

theorem filter_ne_self {l : List Nat} {a : Nat} (h : a ∉ l) : l.filter (fun x => decide (x ≠ a)) = l := by
  rw [List.filter_eq_self]
  intro x hx
  simp only [ne_eq, decide_eq_true_eq]
  rintro rfl
  exact h hx

/-- **C77** (proved part).  Whatever the state of the process, after a computation which reaches its normal end (with or without
failures of items or of sub-processes), the standard streams are those before the creation of the executor, its log file is
closed, its lock file is removed, and nothing has changed for the other executors; if there was something to do, the end is
recorded.  Missing: computations stopped by an exception, and multi executors with nothing to do, for which it is false. -/
theorem C77_restored_partial (p : Proc) (j : Job) (hid : NewId p j.id) (h : EndsNormally j) :
    SameSession p (runJob j p).1 ∧ (j.n ≠ 0 → j.id ∈ (runJob j p).1.ended) := by
  obtain ⟨⟨after, ha⟩, hm⟩ := h
  obtain ⟨id, multi, n, how⟩ := j
  simp only at ha hm hid
  subst ha
  have f1 : ∀ a ∈ p.openLogs, (decide ¬a = id) = true := by
    intro a ha
    have : a ≠ id := by rintro rfl; exact hid.1 ha
    simpa using this
  have f2 : ∀ a ∈ p.locks, (decide ¬a = id) = true := by
    intro a ha
    have : a ≠ id := by rintro rfl; exact hid.2 ha
    simpa using this
  by_cases hn : n = 0
  · have h0 : multi = false := by
      cases multi
      · rfl
      · exact absurd hn (hm rfl)
    subst hn h0
    simp [runJob, create, compute, resetStd, releaseLock, hid.2, SameSession]
    exact f1
  · simp [runJob, create, compute, resetStd, releaseLock, saveLock, hn, SameSession]
    exact ⟨f1, f2⟩

/-- **C77** (several computations, proved part).  The same after any number of computations reaching their normal end. -/
theorem C77_history_partial : ∀ (js : List Job) (p : Proc), (∀ j ∈ js, NewId p j.id) → (∀ j ∈ js, EndsNormally j) →
    SameSession p (runJobs p js)
  | [], p, _, _ => ⟨rfl, rfl, rfl, rfl⟩
  | j :: js, p, hid, h => by
    obtain ⟨⟨h1, h2, h3, h4⟩, -⟩ := C77_restored_partial p j (hid j (by simp)) (h j (by simp))
    have := C77_history_partial js (runJob j p).1
      (fun k hk => by
        have := hid k (by simp [hk])
        unfold NewId at this ⊢
        rw [h3, h4]
        exact this)
      (fun k hk => h k (by simp [hk]))
    obtain ⟨k1, k2, k3, k4⟩ := this
    exact ⟨k1.trans h1, k2.trans h2, k3.trans h3, k4.trans h4⟩

/-- The streams of the process write in the log file of an executor, and this file is open. -/
def WritesInLog (id : Nat) (p : Proc) : Prop :=
  (∃ b, p.stdout = .multiFile b id) ∧ (∃ b, p.stderr = .multiFile b id) ∧ id ∈ p.openLogs

/-- **C77** fails when a multi executor has nothing to do: `compute` returns normally, and everything which is printed afterwards is
also written in the log file of this executor, which stays open. -/
theorem C77_nothing_to_do_fails (p : Proc) (id : Nat) (after : Option PyErr) :
    (runJob ⟨id, true, 0, .ends after⟩ p).2 = none ∧ WritesInLog id (runJob ⟨id, true, 0, .ends after⟩ p).1 := by
  simp [runJob, create, compute, WritesInLog]

/-- **C77** fails when an exception stops the computation: the streams are not restored, the log file stays open, and if the
exception is not in the initialisation the lock file stays. -/
theorem C77_error_fails (p : Proc) (id n : Nat) (e : PyErr) (hn : n ≠ 0) (multi : Bool) (how : How)
    (hh : how = .initRaises e ∨ how = .worksRaise e ∨ how = .finalRaises e) :
    (runJob ⟨id, multi, n, how⟩ p).2 = some e ∧ WritesInLog id (runJob ⟨id, multi, n, how⟩ p).1 ∧
    (how ≠ .initRaises e → id ∈ (runJob ⟨id, multi, n, how⟩ p).1.locks) := by
  rcases hh with rfl | rfl | rfl <;> cases multi <;> simp [runJob, create, compute, WritesInLog, hn, saveLock]

/-- ... and it is not repaired by the next computations: they restore the streams which they have found. -/
theorem C77_error_stays_fails (p : Proc) (id n : Nat) (e : PyErr) (hn : n ≠ 0) (multi : Bool) (js : List Job)
    (hid : ∀ j ∈ js, NewId (runJob ⟨id, multi, n, .worksRaise e⟩ p).1 j.id) (h : ∀ j ∈ js, EndsNormally j) :
    WritesInLog id (runJobs p (⟨id, multi, n, .worksRaise e⟩ :: js)) ∧
      id ∈ (runJobs p (⟨id, multi, n, .worksRaise e⟩ :: js)).locks := by
  obtain ⟨-, ⟨h1, h2, h3⟩, h4⟩ := C77_error_fails p id n e hn multi (.worksRaise e) (by simp)
  obtain ⟨k1, k2, k3, k4⟩ := C77_history_partial js _ hid h
  simp only [runJobs, WritesInLog]
  rw [k1, k2, k3, k4]
  exact ⟨⟨h1, h2, h3⟩, h4 (by simp)⟩

/-- The log files in which a stream writes. -/
def logsOf : Stream → List Nat
  | .multiFile base log => log :: logsOf base
  | _ => []

/-- Where a stream writes apart from the log files. -/
def terminalOf : Stream → Stream
  | .multiFile base _ => terminalOf base
  | s => s

/-- **C77** (logs).  Whatever the history of the process (computations stopped by errors included), what is printed during a computation
is written in the log file of this computation and in no other log file; if the streams were not redirected by another
executor, it is also written where it was written before. -/
theorem C77_own_log (p : Proc) (id : Nat) (multi : Bool) :
    logsOf (create id multi p).2.stdout = [id] ∧ logsOf (create id multi p).2.stderr = [id] ∧
    (logsOf p.stdout = [] → terminalOf (create id multi p).2.stdout = p.stdout) ∧
    (logsOf p.stderr = [] → terminalOf (create id multi p).2.stderr = p.stderr) := by
  have h : ∀ s, logsOf (baseOf s) = [] := by intro s; cases s <;> rfl
  have h' : ∀ s, logsOf s = [] → terminalOf (baseOf s) = s := by
    intro s hs
    cases s with
    | multiFile b l => cases hs
    | std => rfl
    | user n => rfl
  refine ⟨?_, ?_, ?_, ?_⟩ <;> simp [create, logsOf, terminalOf, h]
  · exact h' _
  · exact h' _

/-- **C77** fails for the streams of the user after a computation stopped by an error: if the user had redirected the output (in a
notebook or a file), what the next computations print goes to the original standard output. -/
theorem C77_user_stream_fails (p : Proc) (id id' k : Nat) (multi multi' : Bool) (hp : p.stdout = .user k) :
    terminalOf (create id multi p).2.stdout = .user k ∧
    terminalOf (create id' multi' (create id multi p).2).2.stdout = .std := by
  simp [create, hp, baseOf, terminalOf]

/-! ### At the exit of the interpreter -/

theorem releaseLock_locks (id : Nat) (p : Proc) : (releaseLock id p).locks = p.locks.filter (fun x => decide (x ≠ id)) := by
  unfold releaseLock
  split
  · rfl
  · rename_i h
    exact (filter_ne_self h).symm

theorem releaseLock_atExit (id : Nat) (p : Proc) : (releaseLock id p).atExit = p.atExit := by
  unfold releaseLock
  split <;> rfl

theorem foldl_release_locks : ∀ (l : List Nat) (p : Proc),
    (l.foldl (fun p id => releaseLock id p) p).locks = p.locks.filter (fun x => decide (x ∉ l))
  | [], p => by simp
  | a :: l, p => by
    rw [List.foldl_cons, foldl_release_locks l, releaseLock_locks, List.filter_filter]
    apply List.filter_congr
    intro x _
    simp only [List.mem_cons, not_or, ne_eq]
    by_cases h : x = a <;> simp [h]

/-- Every lock file created in this session is registered. -/
def LocksRegistered (p : Proc) : Prop := ∀ id ∈ p.locks, id ∈ p.atExit

theorem runJob_registered (j : Job) (p : Proc) (h : LocksRegistered p) : LocksRegistered (runJob j p).1 := by
  obtain ⟨id, multi, n, how⟩ := j
  have hsub : ∀ (q : Proc), LocksRegistered q → LocksRegistered (releaseLock id q) := by
    intro q hq x hx
    rw [releaseLock_atExit]
    rw [releaseLock_locks, List.mem_filter] at hx
    exact hq x hx.1
  have hsave : ∀ (q : Proc), LocksRegistered q → LocksRegistered (saveLock id q) := by
    intro q hq x hx
    simp only [saveLock, List.mem_cons] at hx ⊢
    exact hx.imp_right (hq x)
  have h0 : LocksRegistered (create id multi p).2 := h
  simp only [runJob]
  rcases hc : create id multi p with ⟨e, q⟩
  rw [hc] at h0
  have he : e.id = id := by
    simp only [create, Prod.mk.injEq] at hc
    rw [← hc.1]
  simp only at h0 ⊢
  cases how with
  | initRaises x => exact h0
  | worksRaise x =>
    simp only [compute, he]
    split
    · exact h0
    · split
      · exact h0
      · exact hsave q h0
  | finalRaises x =>
    simp only [compute, he]
    split
    · exact h0
    · split
      · exact h0
      · exact hsave q h0
  | ends after =>
    simp only [compute, he]
    split
    · exact h0
    · apply hsub
      have : LocksRegistered (if n = 0 then q else saveLock id q) := by
        split
        · exact h0
        · exact hsave q h0
      exact this

/-- **C77** (exit).  When the interpreter exits normally, no lock file is left, whatever the computations which have been done and
how they have ended. -/
theorem C77_exit (p : Proc) (js : List Job) (h0 : p.locks = []) : (exit (runJobs p js)).locks = [] := by
  have h : ∀ (js : List Job) (q : Proc), LocksRegistered q → LocksRegistered (runJobs q js) := by
    intro js
    induction js with
    | nil => intro q hq; exact hq
    | cons j js ih => intro q hq; exact ih _ (runJob_registered j q hq)
  have hr := h js p (by intro x hx; rw [h0] at hx; simp at hx)
  unfold Session.exit
  rw [foldl_release_locks, List.filter_eq_nil_iff]
  intro x hx
  simp [hr x hx]

/-- Three computations: one with failed sub-processes, one with nothing to do, one normal. -/
example : runJobs ⟨.user 0, .std, [], [], [], []⟩ [⟨1, true, 5, .ends (some .runtimeError)⟩, ⟨2, false, 0, .ends none⟩,
    ⟨3, false, 2, .ends none⟩] = ⟨.user 0, .std, [], [], [3, 1], [3, 1]⟩ := by decide

/-! ## C78 -/

/-- **C78** (executor).  The executor which is used: the sequential one with `sequential=True`, the one whose name is given,
the default one otherwise, with the number of workers given to `compute`, or else the one of the topology.  An unknown name
and a contradiction between `sequential` and the name are refused. -/
theorem C78_executor_partial (names : List (List Char)) (default : List Char) (nbArg nbTopo : Option Int)
    (previous : Option Nat) (hseq : seqName ∈ names) (hdef : default ∈ names) :
    (∀ arg, arg = .none ∨ arg = .name seqName →
      chooseExecutor names default arg true nbArg nbTopo previous = .ok (.created seqName (nbArg.or nbTopo))) ∧
    (∀ arg, arg ≠ .none → arg ≠ .name seqName →
      chooseExecutor names default arg true nbArg nbTopo previous = .error .valueError) ∧
    chooseExecutor names default .none false nbArg nbTopo previous = .ok (.created default (nbArg.or nbTopo)) ∧
    (∀ s, s ∈ names →
      chooseExecutor names default (.name s) false nbArg nbTopo previous = .ok (.created s (nbArg.or nbTopo))) ∧
    (∀ s, s ∉ names →
      chooseExecutor names default (.name s) false nbArg nbTopo previous = .error .notImplementedError) := by
  refine ⟨?_, ?_, ?_, ?_, ?_⟩
  · rintro arg (rfl | rfl) <;> cases nbArg <;> simp [chooseExecutor, hseq]
  · intro arg h1 h2
    simp [chooseExecutor, h1, h2]
  · cases nbArg <;> simp [chooseExecutor, hdef]
  · intro s hs
    cases nbArg <;> simp [chooseExecutor, hs]
  · intro s hs
    simp [chooseExecutor, hs]

/-- **C78** fails for an executor object (documented as accepted): it is not used.  The first time it is an `AttributeError`; after
another computation, the executor of that computation is used again. -/
theorem C78_object_fails (names : List (List Char)) (default : List Char) (nbArg nbTopo : Option Int) (e e' : Nat) :
    chooseExecutor names default (.object e) false nbArg nbTopo none = .error .attributeError ∧
    chooseExecutor names default (.object e) false nbArg nbTopo (some e') = .ok (.stored e') := by
  simp [chooseExecutor]

/-- **C78** (limits).  The number of workers is the one given to `compute`, otherwise the one of the topology, otherwise the one of the
configuration file, otherwise the number of cores (plus 2 when it is smaller than 16); the size of the queues is the one which is
given, otherwise four items per worker and at least 8. -/
theorem C78_limits (a t c : Option Int) (cores : Nat) (q : Option Int) :
    (∀ n, a = some n → nbMaxWorkers (a.or t) c cores = n) ∧
    (∀ n, a = none → t = some n → nbMaxWorkers (a.or t) c cores = n) ∧
    (∀ n, a = none → t = none → c = some n → nbMaxWorkers (a.or t) c cores = n) ∧
    (a = none → t = none → c = none →
      (cores < 16 → nbMaxWorkers (a.or t) c cores = cores + 2) ∧ (16 ≤ cores → nbMaxWorkers (a.or t) c cores = cores)) ∧
    (∀ w n, q = some n → nbItemsQueueMax q w = n) ∧
    (∀ w, q = none → nbItemsQueueMax q w ≥ 8 ∧ nbItemsQueueMax q w ≥ 4 * w ∧
      (nbItemsQueueMax q w = 8 ∨ nbItemsQueueMax q w = 4 * w)) := by
  refine ⟨?_, ?_, ?_, ?_, ?_, ?_⟩
  · rintro n rfl; rfl
  · rintro n rfl rfl; rfl
  · rintro n rfl rfl rfl; rfl
  · rintro rfl rfl rfl
    constructor
    · intro h; simp [nbMaxWorkers, h]
    · intro h; simp only [nbMaxWorkers, Option.or_none]; rw [if_neg (by omega)]
  · rintro w n rfl; rfl
  · rintro w rfl
    simp only [nbItemsQueueMax]
    omega

/-- **C78** (positive limits, proved part).  There is at least one worker if nobody asks for less than one. -/
theorem C78_positive_partial (a t c : Option Int) (cores : Nat) (hcores : 0 < cores) (ha : ∀ n, a = some n → 0 < n)
    (ht : ∀ n, t = some n → 0 < n) (hc : ∀ n, c = some n → 0 < n) : 0 < nbMaxWorkers (a.or t) c cores := by
  cases a with
  | some n => exact ha n rfl
  | none =>
    cases t with
    | some n => exact ht n rfl
    | none =>
      cases c with
      | some n => exact hc n rfl
      | none =>
        simp only [nbMaxWorkers, Option.or_none]
        split <;> omega

/-- The limits which are used in the theorems about the executors (C12) are these ones. -/
theorem C78_limits_nat (arg cfg : Option Nat) (cores : Nat) (q : Option Nat) (w : Nat) :
    nbMaxWorkers (arg.map Int.ofNat) (cfg.map Int.ofNat) cores = Builder.maxWorkers arg cfg cores ∧
    nbItemsQueueMax (q.map Int.ofNat) w = Builder.queueMax q w := by
  constructor
  · cases arg <;> cases cfg <;> simp [nbMaxWorkers, Builder.maxWorkers]
  · cases q
    · simp only [Option.map_none, nbItemsQueueMax, Builder.queueMax]
      omega
    · rfl

section zero
open Verif.Exec
variable {κ α ε σ : Type} [DecidableEq κ]

/-- **C78** fails for zero workers: it is accepted (`C78_limits`), and with the asynchronous executor a computation with at least one
item never ends: whatever the steps, no function is called and the flag which stops the loops is never set. -/
theorem C78_zero_workers_fails (T : Topology κ α ε σ) (c : Cfg) (h0 : c.maxWorkers = 0)
    (hitem : ∀ w ∈ T.works, ∃ inp out io f, w = Work.item inp out io f) (q : Queues κ α ε) (a : σ)
    (hq : allEmpty T q a = false) (ls : List Label) (s : AState κ α ε σ) (hrun : ARun T c (AState.init q a) ls s) :
    s.stop = false ∧ s.log = [] := by
  have key : s = AState.init q a := by
    generalize hs0 : AState.init q a = s0 at hrun
    induction hrun with
    | nil => rfl
    | @snoc s1 s2 ls l hr hs ih =>
      subst hs0
      subst ih
      unfold astep at hs
      simp only [AState.init] at hs
      cases l with
      | launch w =>
        simp only [launchStep] at hs
        split at hs
        · simp [h0] at hs
        · simp at hs
      | «begin» w => simp [beginStep] at hs
      | finish i => simp [finishStep] at hs
      | glob w =>
        simp only [globStep] at hs
        split at hs
        · rename_i ready _ run hw
          obtain ⟨_, _, _, _, hx⟩ := hitem _ (List.mem_of_getElem? hw)
          cases hx
        · simp at hs
      | check =>
        simp only [checkStep, hq, Bool.false_and] at hs
        simpa [AState.init] using hs.symm
  subst key
  exact ⟨rfl, rfl⟩

/-- A topology with one work and one item in its queue meets the hypotheses. -/
example : allEmpty (⟨1, [Work.item 0 none false (fun (_ : Nat) (v : Nat) => (.ok v : Except Unit Nat))], fun _ => true⟩ :
    Topology Nat Nat Unit Unit) (fun _ => [(0, .ok 5)]) () = false := by decide

end zero

/-! ### Number of cores -/

/-- A machine with identical sockets: `cores` physical cores per socket and `threads` logical processors per core, all of them
available. -/
structure Machine where
  sockets : Nat
  cores : Nat
  threads : Nat

/-- Number of logical processors. -/
def Machine.logical (m : Machine) : Nat := m.sockets * (m.cores * m.threads)

/-- The mask of the processors `0, …, n - 1`. -/
def fullMask (n : Nat) : Nat := 2 ^ n - 1

theorem popcount_fullMask (n : Nat) : popcount (fullMask n) = n := by
  induction n with
  | zero => unfold popcount; simp [fullMask]
  | succ n ih =>
    have h2 : 0 < 2 ^ n := Nat.pos_of_ne_zero (by positivity)
    unfold popcount
    rw [if_neg (by unfold fullMask; rw [pow_succ]; omega)]
    have e1 : fullMask (n + 1) % 2 = 1 := by unfold fullMask; rw [pow_succ]; omega
    have e2 : fullMask (n + 1) / 2 = fullMask n := by unfold fullMask; rw [pow_succ]; omega
    rw [e1, e2, ih]
    omega

/-- **C78** (cores).  The number of cores which is used on a machine with all its processors available, when hyperthreading is not
allowed: half of the logical processors if there are two sockets, all of them otherwise, whether there is hyperthreading or
not. -/
theorem C78_cores (m : Machine) (hs : 0 < m.sockets) (hc : 0 < m.cores) (ht : 0 < m.threads) (count : Nat) :
    nbCores count (fullMask m.logical) (some (m.cores * m.threads)) false =
      if m.sockets = 2 then m.cores * m.threads else m.sockets * (m.cores * m.threads) := by
  have hl : 0 < m.cores * m.threads := Nat.mul_pos hc ht
  have hlog : 0 < m.logical := Nat.mul_pos hs hl
  unfold nbCores
  simp only [popcount_fullMask]
  rw [if_pos hlog]
  by_cases h : m.sockets = 2
  · rw [if_pos h, if_pos ⟨by unfold Machine.logical; rw [h, mul_comm], by simp⟩]
    unfold Machine.logical
    rw [h]
    omega
  · rw [if_neg h, if_neg]
    · rfl
    · rintro ⟨h', -⟩
      apply h
      unfold Machine.logical at h'
      rw [mul_comm] at h'
      exact Nat.eq_of_mul_eq_mul_left hl h'

/-- **C78** fails for the cores: hyperthreading is avoided (as many processes as physical cores) only for one thread per core and a
number of sockets different from 2, or for two threads per core and two sockets. -/
theorem C78_cores_fails (m : Machine) (hs : 0 < m.sockets) (hc : 0 < m.cores) (ht : 0 < m.threads) (count : Nat) :
    nbCores count (fullMask m.logical) (some (m.cores * m.threads)) false = m.sockets * m.cores ↔
      (m.threads = 1 ∧ m.sockets ≠ 2) ∨ (m.threads = 2 ∧ m.sockets = 2) := by
  rw [C78_cores m hs hc ht]
  by_cases h : m.sockets = 2
  · rw [if_pos h, h]
    constructor
    · intro e
      right
      refine ⟨?_, rfl⟩
      rw [mul_comm 2] at e
      exact Nat.eq_of_mul_eq_mul_left hc e
    · rintro (⟨_, h'⟩ | ⟨h', _⟩)
      · exact absurd rfl h'
      · rw [h', mul_comm]
  · rw [if_neg h]
    constructor
    · intro e
      left
      refine ⟨?_, h⟩
      have e1 := Nat.eq_of_mul_eq_mul_left hs e
      have : m.cores * m.threads = m.cores * 1 := by rw [e1, mul_one]
      exact Nat.eq_of_mul_eq_mul_left hc this
    · rintro (⟨h', _⟩ | ⟨_, h'⟩)
      · rw [h', mul_one]
      · exact absurd h' h

/-- A laptop with 4 cores and hyperthreading: 8 processes; two sockets of 8 cores without hyperthreading: 8 processes. -/
example : nbCores 8 (fullMask 8) (some 8) false = 8 ∧ nbCores 16 (fullMask 16) (some 8) false = 8 := by
  constructor
  · exact C78_cores ⟨1, 4, 2⟩ (by decide) (by decide) (by decide) 8
  · exact C78_cores ⟨2, 8, 1⟩ (by decide) (by decide) (by decide) 16

end Verif
