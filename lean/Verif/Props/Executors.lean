import Verif.Exec.ChainRun
import Verif.Exec.Labels
import Verif.Exec.CanFinish

/-!
# Executors (C09–C15)

The specification is `Verif/Spec/Chain.lean`: what has to happen to one item, without queues or schedules.
-/

namespace Verif
open Verif.Exec Verif.Spec

/-! ## A concrete chain, used to show that the hypotheses are satisfiable -/

namespace ExampleChain

/-- Three works: read (I/O), compute (CPU, raises for the value 13), save (I/O, raises for the key 5). -/
def works : List (ChainWork Nat Nat Nat) :=
  [⟨true, fun _ v => .ok (v + 10)⟩,
   ⟨false, fun _ v => if v = 13 then .error 99 else .ok (2 * v)⟩,
   ⟨true, fun k v => if k = 5 then .error 55 else .ok v⟩]

def items : Dict Nat (Except Nat Nat) := [(1, .ok 1), (2, .ok 3), (5, .ok 4), (7, .error 77)]

def cfg : Cfg := ⟨2, 8, false⟩

def labels : List Label :=
  [.launch 0, .begin 0, .finish 0, .launch 1, .launch 0, .begin 1, .finish 0, .begin 0, .launch 2, .begin 2,
   .finish 0, .launch 0, .begin 0, .launch 1, .check, .finish 0, .finish 0, .begin 1, .finish 0, .launch 2,
   .launch 0, .begin 0, .launch 1, .begin 1, .finish 0, .launch 1, .begin 2, .launch 2, .begin 2, .finish 0,
   .begin 1, .launch 2, .begin 2, .check]

/-- The state reached by `labels`. -/
def final : Option (AState Nat Nat Nat Unit) :=
  runLabels (chain works) cfg labels (AState.init (startQueues items) ())

end ExampleChain

/-! ## C09 -/

variable {κ α ε : Type} [DecidableEq κ]

/-- C09.  The sequential executor terminates on every chain of works, without raising; at the end every queue is
empty, and the events of each key are those of the specification: its side effects are a permutation of the
effects of the items taken one after the other. -/
theorem C09_sequential_chain (ws : List (ChainWork κ α ε)) (hws : ws ≠ []) (items : Dict κ (Except ε α))
    (hk : items.KeysUnique) (c : Cfg) (hc : c.stopIfError = false) :
    ∃ n s, seqLoop (chain ws) c n (SState.init (startQueues items) ()) = some s ∧ s.crashed = none ∧
      (∀ i < ws.length, s.q i = []) ∧
      (∀ k v, items.get? k = some v → historyOf k s.log = itemEvents k 0 ws v) ∧
      (∀ k, items.get? k = none → historyOf k s.log = []) ∧
      s.log.Perm (allEvents ws items) := by
  obtain ⟨n, s, h⟩ := seq_terminates (P := fun _ _ _ => True) (c := c) (auxPot := fun _ => 0) (chain_rank ws)
    (chain_globPot ws _ _ _) (chain_sprogress ws c _) (fun _ _ _ => trivial)
    (SState.init (startQueues items) ()) trivial
  have hcr := seqLoop_noCrash hc h rfl
  have hh := chain_seq_history hws hk h hcr
  obtain ⟨_, h2⟩ := Holds.seqLoop (chain_lawful ws) (chain_globLaws ws) h (chain_init hws hk) hcr
  refine ⟨n, s, h, hcr, (allEmpty_iff.1 h2).1, ?_, ?_, chain_perm hk hh⟩
  · intro k v hv; rw [hh k, hv]
  · intro k hv; rw [hh k, hv]

/-- The hypotheses hold for the example, and the specification of its items is what one expects. -/
example : ExampleChain.items.KeysUnique ∧ ExampleChain.works ≠ [] ∧
    allEvents ExampleChain.works ExampleChain.items =
      [.call 0 1 1, .call 1 1 11, .call 2 1 22,
       .call 0 2 3, .call 1 2 13, .failed 1 2 99, .dropped 2 2 99,
       .call 0 5 4, .call 1 5 14, .call 2 5 28, .failed 2 5 55,
       .dropped 2 7 77] := by
  refine ⟨by unfold Dict.KeysUnique; decide, by simp [ExampleChain.works], by decide⟩

/-- The executor model runs on the example (the items progress together, the order is not the one above). -/
example : (seqLoop (chain ExampleChain.works) ExampleChain.cfg 20
    (SState.init (startQueues ExampleChain.items) ())).map (·.log) =
    some [.call 0 1 1, .call 1 1 11, .call 2 1 22,
      .call 0 2 3, .call 1 2 13, .failed 1 2 99, .dropped 2 2 99,
      .call 0 5 4, .call 1 5 14, .call 2 5 28, .failed 2 5 55,
      .dropped 2 7 77] := by decide

/-! ## C10 -/

/-- C10.  Every execution of the asynchronous executor which reaches the stop flag, whatever the interleaving and
the limits, has for each key the events of the specification, in the same order, and as a whole the same
multiset of events as the specification. -/
theorem C10_async_schedule (ws : List (ChainWork κ α ε)) (hws : ws ≠ []) (items : Dict κ (Except ε α))
    (hk : items.KeysUnique) (c : Cfg) (ls : List Label) (s : AState κ α ε Unit)
    (hrun : ARun (chain ws) c (AState.init (startQueues items) ()) ls s) (hstop : s.stop = true) :
    (∀ k v, items.get? k = some v → historyOf k s.log = itemEvents k 0 ws v) ∧
    (∀ k, items.get? k = none → historyOf k s.log = []) ∧
    s.log.Perm (allEvents ws items) := by
  have hh := chain_async_history hws hk hrun hstop
  refine ⟨?_, ?_, chain_perm hk hh⟩
  · intro k v hv; rw [hh k, hv]
  · intro k hv; rw [hh k, hv]

/-- C10.  Same effects as the sequential executor, whatever the limits of both. -/
theorem C10_async_like_sequential (ws : List (ChainWork κ α ε)) (hws : ws ≠ []) (items : Dict κ (Except ε α))
    (hk : items.KeysUnique) (c c' : Cfg) (hc' : c'.stopIfError = false) (ls : List Label) (s : AState κ α ε Unit)
    (hrun : ARun (chain ws) c (AState.init (startQueues items) ()) ls s) (hstop : s.stop = true)
    (n : Nat) (s' : SState κ α ε Unit)
    (hseq : seqLoop (chain ws) c' n (SState.init (startQueues items) ()) = some s') :
    s.log.Perm s'.log ∧ ∀ k, historyOf k s.log = historyOf k s'.log := by
  have hcr := seqLoop_noCrash hc' hseq rfl
  have h1 := chain_async_history hws hk hrun hstop
  have h2 := chain_seq_history hws hk hseq hcr
  exact ⟨(chain_perm hk h1).trans (chain_perm hk h2).symm, fun k => by rw [h1 k, h2 k]⟩

/-- A schedule with interleaved tasks, forwarded errors, a failing last work and an early check. -/
example : ∃ s, ARun (chain ExampleChain.works) ExampleChain.cfg (AState.init (startQueues ExampleChain.items) ())
    ExampleChain.labels s ∧ s.stop = true ∧
    s.log = [.call 0 1 1, .call 1 1 11, .call 0 2 3, .call 2 1 22, .call 0 5 4, .call 1 2 13, .failed 1 2 99,
      .call 1 5 14, .dropped 2 2 99, .call 2 5 28, .failed 2 5 55, .dropped 2 7 77] := by
  cases h : ExampleChain.final with
  | none => exact absurd h (by decide)
  | some s =>
    have h1 : ExampleChain.final.map (fun s => (s.stop, s.log)) =
      some (true, [.call 0 1 1, .call 1 1 11, .call 0 2 3, .call 2 1 22, .call 0 5 4, .call 1 2 13, .failed 1 2 99,
      .call 1 5 14, .dropped 2 2 99, .call 2 5 28, .failed 2 5 55, .dropped 2 7 77]) := by decide
    rw [h] at h1
    simp only [Option.map_some, Option.some.injEq, Prod.mk.injEq] at h1
    exact ⟨s, runLabels_run h, h1.1, h1.2⟩

/-! ## C11 -/

/-- C11.  In every topology whose item works read queues of the topology and whose global works are not called when
everything is empty (`WellFormed`, see `Verif/Exec/StopIfError.lean`): when the stop flag is set, all the queues are
empty and nothing runs, and no later step calls a function, reports an error or fills a queue again. -/
theorem C11_never_stops_early {σ : Type} (T : Topology κ α ε σ) (hT : WellFormed T) (c : Cfg) (q : Queues κ α ε)
    (a : σ) (ls : List Label) (s : AState κ α ε σ) (hrun : ARun T c (AState.init q a) ls s) (hstop : s.stop = true) :
    (∀ i < T.nq, s.q i = []) ∧ T.auxEmpty s.aux = true ∧ s.inflight = [] ∧ s.crashed = none ∧
    ∀ ls' s', ARun T c s ls' s' → s'.log = s.log ∧ s'.inflight = [] ∧ s'.crashed = none ∧ ∀ i < T.nq, s'.q i = [] := by
  obtain ⟨h1, h2⟩ := stopped_of_run hT hrun (CInv.init _ _) rfl hstop
  have h3 := allEmpty_iff.1 h1.empty
  refine ⟨h3.1, h3.2, h1.idle, h2 rfl, ?_⟩
  intro ls' s' hrun'
  obtain ⟨h4, h5, h6⟩ := h1.run hT hrun'
  exact ⟨h5, h4.idle, by rw [h6]; exact h2 rfl, (allEmpty_iff.1 h4.empty).1⟩

/-- Chains are well-formed; the final state of the example has its flag set. -/
example : WellFormed (chain ExampleChain.works) ∧ ExampleChain.final.map (·.stop) = some true :=
  ⟨chain_wellFormed _, by decide⟩

/-! ## C12 (chains) -/

/-- C12 for chains.  Every infinite execution under a (weakly) fair scheduler sets the stop flag, when there is at
least one worker and one place in the queues. -/
theorem C12_async_finishes_chain (ws : List (ChainWork κ α ε)) (items : Dict κ (Except ε α))
    (c : Cfg) (hmax : 0 < c.maxWorkers) (hq : 0 < c.queueMax) (run : Nat → AState κ α ε Unit) (lab : Nat → Label)
    (h0 : run 0 = AState.init (startQueues items) ()) (hrun : Infinite (chain ws) c run lab)
    (hfair : Fair (chain ws) c run lab) : ∃ n, (run n).stop = true := by
  have hr : ∀ n, ∃ ls, ARun (chain ws) c (AState.init (startQueues items) ()) ls (run n) := by
    intro n
    induction n with
    | zero => exact ⟨[], by rw [h0]; exact .nil _⟩
    | succ n ih => obtain ⟨ls, h⟩ := ih; exact ⟨_, h.snoc (hrun n)⟩
  refine fair_terminates (P := fun _ _ _ => True) (auxPot := fun _ => 0) (chain_rank ws) (chain_globPot ws _ _ _)
    (chain_aprogress ws c hq _) hmax hrun hfair (fun n => ?_) (fun _ => trivial)
  obtain ⟨ls, h⟩ := hr n
  exact (CInv.init _ _).run h (astep_cases (hrun n)).1

/-- C12 for chains, no deadlock: from every reachable state of a chain which has not crashed, the execution can be
continued until the stop flag is set (or, with `stop_if_error`, until an error escapes), whatever the limits, provided
they are positive. -/
theorem C12_no_deadlock_chain (ws : List (ChainWork κ α ε)) (items : Dict κ (Except ε α))
    (c : Cfg) (hmax : 0 < c.maxWorkers) (hq : 0 < c.queueMax) (ls : List Label) (s : AState κ α ε Unit)
    (hrun : ARun (chain ws) c (AState.init (startQueues items) ()) ls s) (hc : s.crashed = none) :
    ∃ ls' s', ARun (chain ws) c s ls' s' ∧ (s'.stop = true ∨ (c.stopIfError = true ∧ s'.crashed.isSome)) := by
  obtain ⟨ls', s', h1, h2⟩ := can_finish (P := fun _ _ _ => True) (auxPot := fun _ => 0) (chain_rank ws)
    (chain_globPot ws _ _ _) (chain_aprogress ws c hq _) hmax (fun _ _ _ _ => trivial) s
    ((CInv.init (T := chain ws) (startQueues items) ()).run hrun hc) trivial hc
  refine ⟨ls', s', h1, h2.imp id (fun h => ⟨?_, h⟩)⟩
  by_contra hst
  have hst' : c.stopIfError = false := by simpa using hst
  have : s'.crashed = none := by
    cases h1 with
    | nil => exact hc
    | snoc _ hstep => exact astep_noCrash hst' hstep
  rw [this] at h; cases h

/-- A fair infinite execution: the example followed by stop checks for ever, nothing else being possible. -/
example : ∃ (run : Nat → AState Nat Nat Nat Unit) (lab : Nat → Label),
    run 0 = AState.init (startQueues [(0, .ok 0)]) () ∧ Infinite (chain [⟨true, fun _ v => .ok v⟩]) ⟨1, 1, false⟩ run lab ∧
    Fair (chain [⟨true, fun _ v => .ok v⟩]) ⟨1, 1, false⟩ run lab := by
  let T : Topology Nat Nat Nat Unit := chain [⟨true, fun _ v => .ok v⟩]
  let c : Cfg := ⟨1, 1, false⟩
  let s0 : AState Nat Nat Nat Unit := AState.init (startQueues [(0, .ok 0)]) ()
  let lab : Nat → Label := fun n => if n = 0 then .launch 0 else if n = 1 then .begin 0 else if n = 2 then .finish 0 else .check
  let run : Nat → AState Nat Nat Nat Unit := fun n => Nat.rec s0 (fun n s => (astep T c (lab n) s).getD s) n
  have hsucc : ∀ n, run (n + 1) = (astep T c (lab n) (run n)).getD (run n) := fun n => rfl
  have h4 : ∀ n, (run (n + 4)).crashed = none ∧ (run (n + 4)).pending = [] ∧ (run (n + 4)).inflight = [] ∧
      (run (n + 4)).q 0 = [] := by
    intro n
    induction n with
    | zero => exact ⟨rfl, rfl, rfl, rfl⟩
    | succ n ih =>
      have hl : lab (n + 4) = .check := by simp [lab]
      have : run (n + 1 + 4) = checkStep T (run (n + 4)) := by
        show run (n + 4 + 1) = _
        rw [hsucc, hl]
        simp [astep, ih.1]
      rw [this]
      unfold checkStep
      split <;> exact ih
  refine ⟨run, lab, rfl, ?_, ?_⟩
  · intro n
    match n with
    | 0 => rfl
    | 1 => rfl
    | 2 => rfl
    | 3 => rfl
    | n + 4 =>
      have hl : lab (n + 4) = .check := by simp [lab]
      rw [hsucc, hl]
      have hc : (run (n + 4)).crashed = none := (h4 n).1
      show astep T c .check (run (n + 4)) = _
      simp only [astep, hc, Option.getD_some]
      rw [show run (n + 4 + 1) = _ from hsucc (n + 4), hl]
      simp [astep, hc]
  · intro l n h
    have h5 := h (n + 4) (by omega)
    obtain ⟨hc, hp, hf, hq⟩ := h4 n
    have hfin : lab (n + 4) = .check := by simp [lab]
    cases l with
    | check => exact ⟨n + 4, by omega, hfin⟩
    | launch w =>
      exfalso
      change (astep T c (.launch w) (run (n + 4))).isSome = true at h5
      simp only [astep, hc, launchStep] at h5
      split at h5
      · rename_i inp out io f hw
        obtain ⟨rfl, hlt, _⟩ := chain_get hw
        have : inp = 0 := by simp at hlt; exact hlt
        subst this
        simp [hq] at h5
      · cases h5
    | begin w =>
      exfalso
      change (astep T c (.begin w) (run (n + 4))).isSome = true at h5
      simp [astep, hc, beginStep, hp] at h5
    | finish i =>
      exfalso
      change (astep T c (.finish i) (run (n + 4))).isSome = true at h5
      simp [astep, hc, finishStep, hf] at h5
    | glob w =>
      exfalso
      change (astep T c (.glob w) (run (n + 4))).isSome = true at h5
      simp only [astep, hc, globStep] at h5
      split at h5
      · rename_i hw; exact chain_not_glob hw
      · cases h5

/-! ## C13 -/

/-- C13, the part on the counters: in every reachable state which is not crashed, `nb_working_workers_io` and
`nb_working_workers_cpu` are the numbers of I/O and CPU functions being executed.  (No topology is excluded.) -/
theorem C13_counters {σ : Type} (T : Topology κ α ε σ) (c : Cfg) (q : Queues κ α ε) (a : σ) (ls : List Label)
    (s : AState κ α ε σ) (hrun : ARun T c (AState.init q a) ls s) (hc : s.crashed = none) :
    s.nio = (s.inflight.filter (fun t => ioOf T t.w = some true)).length ∧
    s.ncpu = (s.inflight.filter (fun t => ioOf T t.w = some false)).length := by
  have h := (CInv.init (T := T) q a).run hrun hc
  exact ⟨h.counter true, h.counter false⟩

/-- C13 is false as stated: with `nb_max_workers = 1`, the launchers of two I/O works ("read_array" and "save" of
`TopologyImage2Image`) both see no working worker before the task of the other begins: two I/O tasks work at the
same time.  Each launcher waits here until its previous task has begun (`EagerRun`). -/
theorem C13_worker_limit_exceeded :
    ∃ (ws : List (ChainWork Nat Nat Nat)) (items : Dict Nat (Except Nat Nat)) (ls : List Label)
      (s : AState Nat Nat Nat Unit), items.KeysUnique ∧
      EagerRun (chain ws) ⟨1, 8, false⟩ (AState.init (startQueues items) ()) ls s ∧ s.crashed = none ∧
      s.nio = 2 ∧ s.inflight.length = 2 := by
  let ws : List (ChainWork Nat Nat Nat) := [⟨true, fun _ v => .ok v⟩, ⟨false, fun _ v => .ok v⟩, ⟨true, fun _ v => .ok v⟩]
  let items : Dict Nat (Except Nat Nat) := [(1, .ok 1), (2, .ok 2)]
  let ls : List Label := [.launch 0, .begin 0, .finish 0, .launch 1, .begin 1, .finish 0, .launch 0, .launch 2, .begin 0,
    .begin 2]
  cases h : runEager (chain ws) ⟨1, 8, false⟩ ls (AState.init (startQueues items) ()) with
  | none => exact absurd h (by decide)
  | some s =>
    have h1 : (runEager (chain ws) ⟨1, 8, false⟩ ls (AState.init (startQueues items) ())).map
      (fun s => (s.crashed, s.nio, s.inflight.length)) = some (none, 2, 2) := by decide
    rw [h] at h1
    simp only [Option.map_some, Option.some.injEq, Prod.mk.injEq] at h1
    exact ⟨ws, items, ls, s, by unfold Dict.KeysUnique; decide, runEager_run h, h1.1, h1.2.1, h1.2.2⟩

/-- C13 is false as stated: the running tasks are not counted in the length of the output queue, which can exceed
`nb_items_queue_max` (here 2 items, for a limit of 1). -/
theorem C13_queue_limit_exceeded :
    ∃ (ws : List (ChainWork Nat Nat Nat)) (items : Dict Nat (Except Nat Nat)) (ls : List Label)
      (s : AState Nat Nat Nat Unit), items.KeysUnique ∧
      EagerRun (chain ws) ⟨2, 1, false⟩ (AState.init (startQueues items) ()) ls s ∧ s.crashed = none ∧
      (s.q 1).length = 2 := by
  let ws : List (ChainWork Nat Nat Nat) := [⟨true, fun _ v => .ok v⟩, ⟨false, fun _ v => .ok v⟩]
  let items : Dict Nat (Except Nat Nat) := [(1, .ok 1), (2, .ok 2)]
  let ls : List Label := [.launch 0, .begin 0, .launch 0, .begin 0, .finish 0, .finish 0]
  cases h : runEager (chain ws) ⟨2, 1, false⟩ ls (AState.init (startQueues items) ()) with
  | none => exact absurd h (by decide)
  | some s =>
    have h1 : (runEager (chain ws) ⟨2, 1, false⟩ ls (AState.init (startQueues items) ())).map
      (fun s => (s.crashed, (s.q 1).length)) = some (none, 2) := by decide
    rw [h] at h1
    simp only [Option.map_some, Option.some.injEq, Prod.mk.injEq] at h1
    exact ⟨ws, items, ls, s, by unfold Dict.KeysUnique; decide, runEager_run h, h1.1, h1.2⟩

/-- C13, what holds: when a launcher never runs again before the task it has started begins (`EagerRun`), at most
`nb_max_workers - 1 + n` tasks of a kind work at the same time, where `n` is the number of works of this kind.
Missing: the limit `nb_max_workers` itself, which is false (`C13_worker_limit_exceeded`). -/
theorem C13_workers_partial {σ : Type} (T : Topology κ α ε σ) (c : Cfg) (hmax : 0 < c.maxWorkers) (q : Queues κ α ε)
    (a : σ) (ls : List Label) (s : AState κ α ε σ) (hrun : EagerRun T c (AState.init q a) ls s)
    (hc : s.crashed = none) (io : Bool) :
    (s.inflight.filter (fun t => ioOf T t.w = some io)).length ≤ c.maxWorkers + kindCount T io - 1 := by
  have h := (CInv.init (T := T) q a).run hrun.toRun hc
  have h0 : BoundInv T c (AState.init q a) := by
    refine ⟨List.nodup_nil, fun io => ?_⟩
    cases io <;> simp [AState.init, AState.counter, pendingKind]
  have h1 := (h0.run hrun hc).bound io
  have h2 := h.counter io
  have : running T s.inflight io = (s.inflight.filter (fun t => ioOf T t.w = some io)).length := rfl
  omega

/-- C13, what holds for the queues of a chain, with the same restriction on the launchers: the output queue of the
work `w` holds at most `nb_items_queue_max - 1 + nb_max_workers + n - 1` items. -/
theorem C13_queue_partial (ws : List (ChainWork κ α ε)) (items : Dict κ (Except ε α)) (c : Cfg)
    (ls : List Label) (s : AState κ α ε Unit)
    (hrun : EagerRun (chain ws) c (AState.init (startQueues items) ()) ls s) (hc : s.crashed = none) (w : Nat)
    (hw : w + 1 < ws.length) :
    (s.q (w + 1)).length ≤
      c.queueMax - 1 + (c.maxWorkers + kindCount (chain ws) (ws[w]'(by omega)).io - 1) := by
  have hitem := chain_item (ws := ws) (w := w) (by omega)
  rw [if_pos hw] at hitem
  have h0 : BoundInv (chain ws) c (AState.init (startQueues items) ()) := by
    refine ⟨List.nodup_nil, fun io => ?_⟩
    cases io <;> simp [AState.init, AState.counter, pendingKind]
  have h1 : ((AState.init (startQueues items) () : AState κ α ε Unit).q (w + 1)).length +
      ofWork (AState.init (startQueues items) () : AState κ α ε Unit) w ≤ 0 := by
    simp [AState.init, startQueues, ofWork]
  have := queue_bound_run hitem chain_onlyWriter (Nat.le_refl _) hrun (CInv.init _ _) h0
    (Nat.le_trans h1 (Nat.zero_le _)) hc
  omega

/-- In the counterexamples the bounds of the partial theorems are reached: two I/O works, `1 + 2 - 1 = 2`. -/
example : kindCount (chain ([⟨true, fun _ v => .ok v⟩, ⟨false, fun _ v => .ok v⟩, ⟨true, fun _ v => .ok v⟩] :
    List (ChainWork Nat Nat Nat))) true = 2 := by decide

/-! ## C14 -/

/-- The log of a finished execution of a chain, sequential (without `stop_if_error`) or asynchronous. -/
inductive FinishedLog (ws : List (ChainWork κ α ε)) (items : Dict κ (Except ε α)) (log : List (Event κ α ε)) : Prop
  | seq (c : Cfg) (n : Nat) (s : SState κ α ε Unit) (hc : c.stopIfError = false)
      (h : seqLoop (chain ws) c n (SState.init (startQueues items) ()) = some s) (hlog : log = s.log)
  | async (c : Cfg) (ls : List Label) (s : AState κ α ε Unit)
      (h : ARun (chain ws) c (AState.init (startQueues items) ()) ls s) (hstop : s.stop = true) (hlog : log = s.log)

theorem FinishedLog.history {ws : List (ChainWork κ α ε)} (hws : ws ≠ []) {items : Dict κ (Except ε α)}
    (hk : items.KeysUnique) {log : List (Event κ α ε)} (h : FinishedLog ws items log) (k : κ) :
    historyOf k log = (match items.get? k with | some v => itemEvents k 0 ws v | none => []) := by
  cases h with
  | seq c n s hc h hlog => subst hlog; exact chain_seq_history hws hk h (seqLoop_noCrash hc h rfl) k
  | async c ls s h hstop hlog => subst hlog; exact chain_async_history hws hk h hstop k

/-- C14.  What happens to the item of key `k` depends only on this item and on what the functions do for this key:
adding, removing or changing other items, or making the functions raise for other keys, changes nothing. -/
theorem C14_other_items (ws ws' : List (ChainWork κ α ε)) (hws : ws ≠ []) (items items' : Dict κ (Except ε α))
    (hk : items.KeysUnique) (hk' : items'.KeysUnique) (log log' : List (Event κ α ε)) (h : FinishedLog ws items log)
    (h' : FinishedLog ws' items' log') (k : κ) (hlen : ws.length = ws'.length)
    (hf : ∀ (i : Nat) (c c' : ChainWork κ α ε), ws[i]? = some c → ws'[i]? = some c' → c.f k = c'.f k)
    (hitem : items.get? k = items'.get? k) : historyOf k log = historyOf k log' := by
  have hws' : ws' ≠ [] := by
    intro e; rw [e] at hlen; exact hws (List.length_eq_zero_iff.1 hlen)
  rw [h.history hws hk k, h'.history hws' hk' k, ← hitem]
  cases items.get? k with
  | none => rfl
  | some v => exact itemEvents_congr hlen hf

/-- C14.  The history of a failing item: the works `0, …, w` have been called once each, in this order, the error of
the work `w` has been reported once, and the item ends with one "can not be done" message of the last work (none
when the failing work is the last one). -/
theorem C14_failing_item (ws : List (ChainWork κ α ε)) (hws : ws ≠ []) (items : Dict κ (Except ε α))
    (hk : items.KeysUnique) (log : List (Event κ α ε)) (h : FinishedLog ws items log) (w : Nat) (k : κ) (e : ε)
    (hfail : Event.failed w k e ∈ log) :
    w < ws.length ∧ ∃ vals : List α, vals.length = w + 1 ∧
      historyOf k log = vals.mapIdx (fun i v => Event.call i k v) ++ [Event.failed w k e] ++
        (if w + 1 = ws.length then [] else [Event.dropped (ws.length - 1) k e]) := by
  have hmem : Event.failed w k e ∈ historyOf k log := by
    simp [historyOf, List.mem_filter, hfail, keyOf]
  have hh := h.history hws hk k
  rw [hh] at hmem
  cases hv : items.get? k with
  | none => rw [hv] at hmem; cases hmem
  | some v =>
    rw [hv] at hmem hh
    obtain ⟨_, _, h2, vals, h3, h4⟩ := itemEvents_failed hmem
    refine ⟨by omega, vals, by omega, ?_⟩
    rw [hh]
    simpa using h4

/-- C14.  The history of an item without failure: each work has been called exactly once, in order. -/
theorem C14_successful_item (ws : List (ChainWork κ α ε)) (hws : ws ≠ []) (items : Dict κ (Except ε α))
    (hk : items.KeysUnique) (log : List (Event κ α ε)) (h : FinishedLog ws items log) (k : κ) (v : α)
    (hv : items.get? k = some (.ok v)) (hfail : ∀ w e, Event.failed w k e ∉ log) :
    ∃ vals : List α, vals.length = ws.length ∧ historyOf k log = vals.mapIdx (fun i v => Event.call i k v) := by
  have hh := h.history hws hk k
  rw [hv] at hh
  obtain ⟨vals, h1, h2⟩ := itemEvents_ok (k := k) (w := 0) (ws := ws) (v := v) (by
    intro w e he
    have he' : Event.failed w k e ∈ historyOf k log := by rw [hh]; exact he
    exact hfail w e (List.mem_of_mem_filter he'))
  refine ⟨vals, h1, ?_⟩
  rw [hh]
  show itemEvents k 0 ws (.ok v) = _
  rw [h2]
  simp

/-- The example has a failing item, an item failing at the last work and a successful one. -/
example : ∃ log, FinishedLog ExampleChain.works ExampleChain.items log ∧ Event.failed 1 2 99 ∈ log ∧
    Event.failed 2 5 55 ∈ log ∧ ∀ w e, Event.failed w 1 e ∉ log := by
  cases h : seqLoop (chain ExampleChain.works) ExampleChain.cfg 20
      (SState.init (startQueues ExampleChain.items) ()) with
  | none => exact absurd h (by decide)
  | some s =>
    have h1 : (seqLoop (chain ExampleChain.works) ExampleChain.cfg 20
      (SState.init (startQueues ExampleChain.items) ())).map (·.log) = some [.call 0 1 1, .call 1 1 11, .call 2 1 22,
      .call 0 2 3, .call 1 2 13, .failed 1 2 99, .dropped 2 2 99,
      .call 0 5 4, .call 1 5 14, .call 2 5 28, .failed 2 5 55,
      .dropped 2 7 77] := by decide
    rw [h] at h1
    simp only [Option.map_some, Option.some.injEq] at h1
    refine ⟨s.log, .seq _ _ _ rfl h rfl, ?_, ?_, ?_⟩ <;> rw [h1] <;> simp

/-! ## C15 -/

/-- C15.  With `stop_if_error`, the sequential executor terminates on every chain.  If it raises `e`, the log ends with
the call which has raised `e` and its report, and no function has raised before; otherwise no function has raised.
In both cases what has been done is a prefix of what the execution without `stop_if_error` does (everything, if
nothing raises). -/
theorem C15_stop_if_error (ws : List (ChainWork κ α ε)) (hws : ws ≠ []) (items : Dict κ (Except ε α))
    (hk : items.KeysUnique) (c : Cfg) (hc : c.stopIfError = true) :
    ∃ n s n' s', seqLoop (chain ws) c n (SState.init (startQueues items) ()) = some s ∧
      seqLoop (chain ws) { c with stopIfError := false } n' (SState.init (startQueues items) ()) = some s' ∧
      s.log <+: s'.log ∧
      match s.crashed with
      | none => s.log = s'.log ∧ ∀ w k e, Event.failed w k e ∉ s.log
      | some e => ∃ log0 w k v cw, s.log = log0 ++ [Event.call w k v, Event.failed w k e] ∧
          (∀ w' k' e', Event.failed w' k' e' ∉ log0) ∧ ws[w]? = some cw ∧ cw.f k v = .error e := by
  obtain ⟨n, s, h⟩ := seq_terminates (P := fun _ _ _ => True) (c := c) (auxPot := fun _ => 0) (chain_rank ws)
    (chain_globPot ws _ _ _) (chain_sprogress ws c _) (fun _ _ _ => trivial)
    (SState.init (startQueues items) ()) trivial
  obtain ⟨n', s', h'⟩ := seq_terminates (P := fun _ _ _ => True) (c := c.noStop) (auxPot := fun _ => 0) (chain_rank ws)
    (chain_globPot ws _ _ _) (chain_sprogress ws c.noStop _) (fun _ _ _ => trivial)
    (SState.init (startQueues items) ()) trivial
  have hcmp := seqLoop_compare h h'
  have herr := ErrInv.seqLoop (chain_quiet ws) hc h (by intro ev hev; cases hev)
  refine ⟨n, s, n', s', h, h', ?_, ?_⟩
  · rcases hcmp with h1 | ⟨_, h1⟩
    · rw [h1]; exact List.prefix_refl _
    · exact h1
  · cases hcr : s.crashed with
    | none =>
      rw [hcr] at herr
      refine ⟨?_, fun w k e hmem => ?_⟩
      · rcases hcmp with h1 | ⟨h1, _⟩
        · rw [h1]
        · rw [hcr] at h1; cases h1
      · have := herr _ hmem; cases this
    | some e =>
      rw [hcr] at herr
      rcases herr with ⟨log0, w, k, v, inp, out, io, f, h1, h2, h3, h4⟩ | ⟨w, _, _, _, _, _, _, hw, _⟩
      · obtain ⟨_, _, _, cw, h5, _, h6⟩ := chain_get h3
        refine ⟨log0, w, k, v, cw, h1, ?_, h5, by rw [h6]; exact h4⟩
        intro w' k' e' hmem
        have := h2 _ hmem; cases this
      · exact (chain_not_glob hw).elim

/-- C15 for the asynchronous executor: the error which escapes from `compute` is the one of the last call, and it is
the only one which has been raised. -/
theorem C15_stop_if_error_async (ws : List (ChainWork κ α ε)) (items : Dict κ (Except ε α)) (c : Cfg)
    (hc : c.stopIfError = true) (ls : List Label) (s : AState κ α ε Unit)
    (hrun : ARun (chain ws) c (AState.init (startQueues items) ()) ls s) :
    match s.crashed with
    | none => ∀ w k e, Event.failed w k e ∉ s.log
    | some e => ∃ log0 w k v cw, s.log = log0 ++ [Event.call w k v, Event.failed w k e] ∧
        (∀ w' k' e', Event.failed w' k' e' ∉ log0) ∧ ws[w]? = some cw ∧ cw.f k v = .error e := by
  have herr := ErrInv.run (chain_quiet ws) hc hrun (by intro ev hev; cases hev)
  cases hcr : s.crashed with
  | none =>
    rw [hcr] at herr
    intro w k e hmem
    have := herr _ hmem; cases this
  | some e =>
    rw [hcr] at herr
    rcases herr with ⟨log0, w, k, v, inp, out, io, f, h1, h2, h3, h4⟩ | ⟨w, _, _, _, _, _, _, hw, _⟩
    · obtain ⟨_, _, _, cw, h5, _, h6⟩ := chain_get h3
      refine ⟨log0, w, k, v, cw, h1, ?_, h5, by rw [h6]; exact h4⟩
      intro w' k' e' hmem
      have := h2 _ hmem; cases this
    · exact (chain_not_glob hw).elim

/-- With `stop_if_error`, the example raises the error of the item 2, after which nothing is done. -/
example : (seqLoop (chain ExampleChain.works) { ExampleChain.cfg with stopIfError := true } 20
    (SState.init (startQueues ExampleChain.items) ())).map (fun s => (s.crashed, s.log)) =
    some (some 99, [.call 0 1 1, .call 1 1 11, .call 2 1 22, .call 0 2 3, .call 1 2 13, .failed 1 2 99]) := by decide

end Verif
