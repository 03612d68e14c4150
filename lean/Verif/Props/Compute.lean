import Verif.Model.Compute
import Verif.Exec.StopIfError
import Verif.Exec.ChainRun
import Verif.Props.Executors

/-!
# A run with nothing to do (C20), errors which escape from `compute` (C72)
-/

namespace Verif
open Verif.Exec Verif.Compute

variable {κ α ε σ : Type} [DecidableEq κ]

/-- Nothing has to be computed: no expected result, no item in the queues (in mode "complete" with all the results
present, see C07), and `final_seq_work`, if any, does not raise. -/
structure NothingToDo (job : Job κ α ε σ) : Prop where
  num : job.numExpected = 0
  empty : ∀ i < job.topo.nq, job.start i = []
  aux : job.topo.auxEmpty job.aux = true
  final : job.final = none ∨ job.final = some none

theorem NothingToDo.finalExc {job : Job κ α ε σ} (h : NothingToDo job) : finalExc job.final = none := by
  rcases h.final with h1 | h1 <;> rw [h1] <;> rfl

theorem NothingToDo.allEmpty {job : Job κ α ε σ} (h : NothingToDo job) : allEmpty job.topo job.start job.aux = true :=
  allEmpty_iff.2 ⟨h.empty, h.aux⟩

/-- C20 is false for the sequential executor and all the topologies which record their results (image2image, mean,
preproc, bos, piv and optical flow): when nothing has to be computed, `compute` raises `AttributeError`. -/
theorem C20_sequential_fails (job : Job κ α ε σ) (h : NothingToDo job) (hr : job.hasResults = true) (c : Cfg) (n : Nat) :
    seqCompute job c n = some ⟨some (.inl .attributeError), []⟩ := by
  have hl : seqLoop job.topo c n (SState.init job.start job.aux) = some (SState.init job.start job.aux) := by
    unfold seqLoop
    simp only [SState.init, Option.isSome_none, Bool.false_eq_true, if_false, h.allEmpty, if_true]
  unfold seqCompute
  rw [hl]
  simp [SState.init, h.finalExc, hr, lenSavedSet, h.num]

/-- C20, sequential executor, for the topologies without attribute `results` (surface tracking, user topologies):
`compute` returns without computing anything.  Missing: the topologies with `results` (`C20_sequential_fails`). -/
theorem C20_sequential_partial (job : Job κ α ε σ) (h : NothingToDo job) (hr : job.hasResults = false) (c : Cfg) (n : Nat) :
    seqCompute job c n = some ⟨none, []⟩ := by
  have hl : seqLoop job.topo c n (SState.init job.start job.aux) = some (SState.init job.start job.aux) := by
    unfold seqLoop
    simp only [SState.init, Option.isSome_none, Bool.false_eq_true, if_false, h.allEmpty, if_true]
  unfold seqCompute
  rw [hl]
  simp [SState.init, h.finalExc, hr]

/-- C20, asynchronous executors: every execution computes nothing and returns normally. -/
theorem C20_async (job : Job κ α ε σ) (hT : WellFormed job.topo) (h : NothingToDo job) (c : Cfg) (o : Outcome κ α ε)
    (ho : AsyncCompute job c o) : o.exc = none ∧ o.log = [] := by
  have h0 : Stopped job.topo (AState.init job.start job.aux) := ⟨h.allEmpty, rfl⟩
  cases ho with
  | stopped hrun _ _ =>
    obtain ⟨_, h2, _⟩ := h0.run hT hrun
    exact ⟨by simp [h.finalExc], h2⟩
  | crashed hrun hc =>
    obtain ⟨_, _, h3⟩ := h0.run hT hrun
    rw [hc] at h3
    cases h3

/-- C20, asynchronous executors: the executor stops at its first check. -/
theorem C20_async_stops (job : Job κ α ε σ) (h : NothingToDo job) (c : Cfg) : AsyncCompute job c ⟨none, []⟩ := by
  have hs : astep job.topo c .check (AState.init job.start job.aux) =
      some { AState.init job.start job.aux with stop := true } := by
    simp [astep, AState.init, checkStep, h.allEmpty]
  have := AsyncCompute.stopped (job := job) (c := c) ((ARun.nil _).snoc hs) rfl rfl
  simpa [h.finalExc, AState.init] using this

/-- C20, multi-process executors: `compute` returns without starting any process. -/
theorem C20_multi (job : Job κ α ε σ) (h : NothingToDo job) : multiCompute job = some ⟨none, []⟩ := by
  simp [multiCompute, h.num]

/-- A topology like image2image (three works), with results, for which nothing has to be computed. -/
def exampleJob : Job Nat Nat Nat Unit where
  topo := chain [⟨true, fun _ v => .ok v⟩, ⟨false, fun _ v => .ok (v + 1)⟩, ⟨true, fun _ v => .ok v⟩]
  hasResults := true
  numExpected := 0
  final := none
  start := startQueues []
  aux := ()

example : NothingToDo exampleJob ∧ WellFormed exampleJob.topo :=
  ⟨⟨rfl, fun i _ => by simp [exampleJob, startQueues], rfl, Or.inl rfl⟩, chain_wellFormed _⟩

/-- The asynchronous computation of this job (hypothesis of `C20_async`). -/
example : AsyncCompute exampleJob ⟨4, 8, false⟩ ⟨none, []⟩ :=
  C20_async_stops exampleJob ⟨rfl, fun i _ => by simp [exampleJob, startQueues], rfl, Or.inl rfl⟩ _

/-- With two images to compute, the same topology runs without error. -/
example : (seqCompute { exampleJob with numExpected := 2, start := startQueues [(1, .ok 5), (2, .ok 6)] } ⟨1, 8, false⟩ 9).map
    (fun o => (o.exc, o.log.length)) = some (none, 6) := by decide

/-! ## Which errors escape from `compute` (C72) -/

section
variable {ws : List (ChainWork κ α ε)} {items : Dict κ (Except ε α)} {hasResults : Bool} {num : Nat}
  {final : Option (Option PyErr)}

/-- A chain of works with its items and end-of-run function. -/
def chainJob (ws : List (ChainWork κ α ε)) (items : Dict κ (Except ε α)) (hasResults : Bool) (num : Nat)
    (final : Option (Option PyErr)) : Job κ α ε Unit :=
  ⟨chain ws, hasResults, num, final, startQueues items, ()⟩

/-- Specification: a run whose works have done `log` must raise `exc`, or nothing. -/
structure RaisesAsExpected (stopIfError : Bool) (final : Option (Option PyErr)) (log : List (Event κ α ε))
    (exc : Option (PyErr ⊕ ε)) : Prop where
  normal : exc = none ↔ (final = none ∨ final = some none) ∧
    (stopIfError = true → ∀ w k e, Event.failed w k e ∉ log)
  ofFinal : ∀ e, exc = some (.inl e) ↔ final = some (some e) ∧
    (stopIfError = true → ∀ w k e, Event.failed w k e ∉ log)
  ofWork : ∀ e, exc = some (.inr e) ↔ stopIfError = true ∧ ∃ log0 w k v, log = log0 ++ [Event.call w k v, .failed w k e]

theorem RaisesAsExpected.of_final {b : Bool} {log : List (Event κ α ε)}
    (h : b = true → ∀ w k e, Event.failed w k e ∉ log) :
    RaisesAsExpected b final log ((finalExc final).map .inl) := by
  rcases final with _ | _ | e0
  · exact ⟨by simpa [finalExc] using h, by simp [finalExc], fun e => by
      simp only [finalExc, Option.map_none, reduceCtorEq, false_iff]
      rintro ⟨hb, log0, w, k, v, rfl⟩
      exact h hb w k e (by simp)⟩
  · exact ⟨by simpa [finalExc] using h, by simp [finalExc], fun e => by
      simp only [finalExc, Option.map_none, reduceCtorEq, false_iff]
      rintro ⟨hb, log0, w, k, v, rfl⟩
      exact h hb w k e (by simp)⟩
  · refine ⟨by simp [finalExc], fun e => ?_, fun e => ?_⟩
    · simp only [finalExc, Option.map_some, Option.some.injEq, Sum.inl.injEq]
      exact ⟨fun he => ⟨he, h⟩, fun he => he.1⟩
    · simp only [finalExc, Option.map_some, Option.some.injEq, reduceCtorEq, false_iff]
      rintro ⟨hb, log0, w, k, v, rfl⟩
      exact h hb w k e (by simp)

theorem RaisesAsExpected.of_work {b : Bool} (hb : b = true) {log0 : List (Event κ α ε)} {w : Nat} {k : κ} {v : α} {e0 : ε} :
    RaisesAsExpected b final (log0 ++ [Event.call w k v, .failed w k e0]) (some (.inr e0)) := by
  refine ⟨?_, fun e => ?_, fun e => ?_⟩
  · simp only [reduceCtorEq, false_iff]
    rintro ⟨_, h⟩
    exact h hb w k e0 (by simp)
  · simp only [Option.some.injEq, reduceCtorEq, false_iff]
    rintro ⟨_, h⟩
    exact h hb w k e0 (by simp)
  · simp only [Option.some.injEq, Sum.inr.injEq]
    constructor
    · rintro rfl
      exact ⟨hb, log0, w, k, v, rfl⟩
    · rintro ⟨_, log1, w1, k1, v1, h⟩
      have h2 := congrArg List.getLast? h
      simp only [List.getLast?_append, List.getLast?_cons_cons, List.getLast?_singleton, Option.some_or] at h2
      injection h2 with h2
      injection h2

/-- C72, sequential executor: `compute` terminates, and raises what it has to. -/
theorem C72_sequential (hws : ws ≠ []) (hk : items.KeysUnique) (hnum : num ≠ 0) (c : Cfg) :
    ∃ n o, seqCompute (chainJob ws items hasResults num final) c n = some o ∧
      RaisesAsExpected c.stopIfError final o.log o.exc := by
  have key : ∃ n s, seqLoop (chain ws) c n (SState.init (startQueues items) ()) = some s ∧
      (match s.crashed with
      | none => c.stopIfError = true → ∀ w k e, Event.failed w k e ∉ s.log
      | some e => c.stopIfError = true ∧ ∃ log0 w k v, s.log = log0 ++ [Event.call w k v, .failed w k e]) := by
    cases hc : c.stopIfError with
    | false =>
      obtain ⟨n, s, h1, h2, _⟩ := C09_sequential_chain ws hws items hk c hc
      exact ⟨n, s, h1, by rw [h2]; exact fun h => Bool.noConfusion h⟩
    | true =>
      obtain ⟨n, s, _, _, h1, _, _, h2⟩ := C15_stop_if_error ws hws items hk c hc
      refine ⟨n, s, h1, ?_⟩
      cases hcr : s.crashed with
      | none => rw [hcr] at h2; exact fun _ => h2.2
      | some e =>
        rw [hcr] at h2
        obtain ⟨log0, w, k, v, _, h3, _⟩ := h2
        exact ⟨rfl, log0, w, k, v, h3⟩
  obtain ⟨n, s, h1, h2⟩ := key
  refine ⟨n, ?_⟩
  unfold seqCompute chainJob
  dsimp only
  rw [h1]
  dsimp only
  cases hcr : s.crashed with
  | some e =>
    rw [hcr] at h2
    obtain ⟨hb, log0, w, k, v, hl⟩ := h2
    refine ⟨_, rfl, ?_⟩
    dsimp only
    rw [hl]
    exact .of_work hb
  | none =>
    rw [hcr] at h2
    have := RaisesAsExpected.of_final (final := final) h2
    dsimp only
    cases hf : finalExc final with
    | some e => exact ⟨_, rfl, by simpa [hf] using this⟩
    | none =>
      refine ⟨⟨none, s.log⟩, ?_, by simpa [hf] using this⟩
      cases hasResults <;> simp [lenSavedSet, hnum]

/-- C72, asynchronous executors: whatever the schedule, `compute` raises what it has to. -/
theorem C72_async (c : Cfg) (o : Outcome κ α ε) (ho : AsyncCompute (chainJob ws items hasResults num final) c o) :
    RaisesAsExpected c.stopIfError final o.log o.exc := by
  have key : ∀ ls s, ARun (chain ws) c (AState.init (startQueues items) ()) ls s →
      (match s.crashed with
      | none => c.stopIfError = true → ∀ w k e, Event.failed w k e ∉ s.log
      | some e => c.stopIfError = true ∧ ∃ log0 w k v, s.log = log0 ++ [Event.call w k v, .failed w k e]) := by
    intro ls s hrun
    cases hc : c.stopIfError with
    | false =>
      have h2 : s.crashed = none := by
        cases hrun with
        | nil => rfl
        | snoc _ h => exact astep_noCrash hc h
      rw [h2]; exact fun h => Bool.noConfusion h
    | true =>
      have h2 := C15_stop_if_error_async ws items c hc ls s hrun
      cases hcr : s.crashed with
      | none => rw [hcr] at h2; exact fun _ => h2
      | some e =>
        rw [hcr] at h2
        obtain ⟨log0, w, k, v, _, h3, _⟩ := h2
        exact ⟨rfl, log0, w, k, v, h3⟩
  cases ho with
  | stopped hrun _ hcr =>
    have := key _ _ hrun
    rw [hcr] at this
    exact .of_final this
  | crashed hrun hcr =>
    have := key _ _ hrun
    rw [hcr] at this
    obtain ⟨hb, log0, w, k, v, hl⟩ := this
    dsimp only
    rw [hl]
    exact .of_work hb

end

/-- C72, multi-process executors: no process is started exactly when nothing has to be computed. -/
theorem C72_multi (job : Job κ α ε σ) : multiCompute job = none ↔ job.numExpected ≠ 0 := by
  unfold multiCompute
  split <;> simp_all

/-- A run with an error, with and without `stop_if_error`, and an end-of-run function which raises. -/
example :
    let ws : List (ChainWork Nat Nat Nat) := [⟨true, fun _ v => .ok v⟩, ⟨false, fun _ v => if v = 5 then .error 9 else .ok v⟩]
    let job := chainJob ws [(1, .ok 5), (2, .ok 6)] true 2 (some (some .keyError))
    (seqCompute job ⟨1, 8, true⟩ 9).map (fun o => (o.exc, o.log.length)) = some (some (.inr 9), 3) ∧
    (seqCompute job ⟨1, 8, false⟩ 9).map (fun o => (o.exc, o.log.length)) = some (some (.inl .keyError), 5) := by
  decide

/-- A work which fails for the value 5. -/
def failingChain : List (ChainWork Nat Nat Nat) := [⟨false, fun _ v => if v = 5 then .error 9 else .ok v⟩]

/-- The asynchronous computations of `C72_async`: one image, whose work fails, with `stop_if_error`. -/
example : ∃ o, AsyncCompute (chainJob failingChain [(1, .ok 5)] true 1 none) ⟨1, 8, true⟩ o ∧ o.exc = some (.inr 9) := by
  cases h : runLabels (chain failingChain) ⟨1, 8, true⟩ [.launch 0, .begin 0, .finish 0] (AState.init (startQueues [(1, .ok 5)]) ()) with
  | none => exact absurd h (by decide)
  | some s =>
    have hc : (runLabels (chain failingChain) ⟨1, 8, true⟩ [.launch 0, .begin 0, .finish 0]
      (AState.init (startQueues [(1, .ok 5)]) ())).map (fun s => s.crashed) = some (some 9) := by decide
    rw [h] at hc
    exact ⟨_, .crashed (runLabels_run h) (by simpa using hc), rfl⟩

end Verif
