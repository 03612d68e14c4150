import Verif.Model.ServerSide
import Verif.Props.Servers
import Mathlib.Logic.Function.Iterate

/-!
# Server side of the executor based on servers (C99)
-/

namespace Verif
open Verif.ServerSide

variable {J R : Type}

/-! ## Lemmas -/

/-- The jobs are always in one place, in order. -/
structure SideInv (run : J → R) (picklable : R → Bool) (jobs : List J) (s : Srv J R) : Prop where
  order : s.dead = false → jobs.map (fun j => (j, run j)) = s.sent ++ s.sending.toList ++ s.resend ++
    (s.current.toList ++ s.todo ++ s.inbox).map (fun j => (j, run j))
  dead : s.dead = true → ∃ j rest, jobs.map (fun j => (j, run j)) = s.sent ++ (j, run j) :: rest ∧
    picklable (run j) = false
  good : ∀ r ∈ s.sent, picklable r.2 = true

theorem SideInv.init (run : J → R) (picklable : R → Bool) (jobs : List J) :
    SideInv run picklable jobs (Srv.init jobs) := ⟨by simp [Srv.init], by simp [Srv.init], by simp [Srv.init]⟩

theorem SideInv.step {run : J → R} {picklable : R → Bool} {jobs : List J} {l : ServerSide.Label} {s s' : Srv J R}
    (h : SideInv run picklable jobs s) (hs : ServerSide.step run picklable l s = some s') :
    SideInv run picklable jobs s' := by
  obtain ⟨inbox, todo, current, resend, sending, sent, dead⟩ := s
  unfold ServerSide.step at hs
  cases dead with
  | true => simp at hs
  | false =>
    have ho := h.order rfl
    simp only [Bool.false_eq_true, if_false] at hs
    cases l with
    | receive =>
      cases inbox with
      | nil => cases hs
      | cons j inbox =>
        cases hs
        exact ⟨fun _ => by rw [ho]; simp, by simp, h.good⟩
    | launch =>
      cases current with
      | some j => cases hs
      | none =>
        cases todo with
        | nil => cases hs
        | cons j todo => cases hs; exact ⟨fun _ => by rw [ho]; simp, by simp, h.good⟩
    | finish =>
      cases current with
      | none => cases hs
      | some j => cases hs; exact ⟨fun _ => by rw [ho]; simp, by simp, h.good⟩
    | takeResult =>
      cases sending with
      | some r => cases hs
      | none =>
        cases resend with
        | nil => cases hs
        | cons r resend => cases hs; exact ⟨fun _ => by rw [ho]; simp, by simp, h.good⟩
    | send =>
      cases sending with
      | none => cases hs
      | some r =>
        simp only at hs
        split at hs
        · rename_i hp
          cases hs
          refine ⟨fun _ => by rw [ho]; simp, by simp, ?_⟩
          intro q hq
          rcases List.mem_append.1 hq with h1 | h1
          · exact h.good q h1
          · rw [List.mem_singleton] at h1; subst h1; exact hp
        · rename_i hp
          cases hs
          refine ⟨by simp, fun _ => ?_, h.good⟩
          have hr : r ∈ jobs.map (fun j => (j, run j)) := by rw [ho]; simp
          obtain ⟨j, _, rfl⟩ := List.mem_map.1 hr
          exact ⟨j, resend ++ (current.toList ++ todo ++ inbox).map (fun j => (j, run j)), by rw [ho]; simp,
            by simpa using hp⟩

theorem SideInv.run {run : J → R} {picklable : R → Bool} {jobs : List J} {ls : List ServerSide.Label} {s : Srv J R}
    (h : ServerSide.Run run picklable (Srv.init jobs) ls s) : SideInv run picklable jobs s := by
  have : ∀ {s0 s : Srv J R} {ls}, ServerSide.Run run picklable s0 ls s → SideInv run picklable jobs s0 →
      SideInv run picklable jobs s := by
    intro s0 s ls hr
    induction hr with
    | nil => exact id
    | snoc _ hs ih => intro h0; exact (ih h0).step hs
  exact this h (SideInv.init run picklable jobs)

/-- Number of steps still possible. -/
def sideMeasure (s : Srv J R) : Nat :=
  5 * s.inbox.length + 4 * s.todo.length + 3 * s.current.toList.length + 2 * s.resend.length + s.sending.toList.length

theorem sideMeasure_step {run : J → R} {picklable : R → Bool} {l : ServerSide.Label} {s s' : Srv J R}
    (hs : ServerSide.step run picklable l s = some s') : sideMeasure s' + 1 = sideMeasure s := by
  obtain ⟨inbox, todo, current, resend, sending, sent, dead⟩ := s
  unfold ServerSide.step at hs
  cases dead with
  | true => simp at hs
  | false =>
    simp only [Bool.false_eq_true, if_false] at hs
    cases l with
    | receive =>
      cases inbox with
      | nil => cases hs
      | cons j inbox => cases hs; simp [sideMeasure]; omega
    | launch =>
      cases current with
      | some j => cases hs
      | none =>
        cases todo with
        | nil => cases hs
        | cons j todo => cases hs; simp [sideMeasure]; omega
    | finish =>
      cases current with
      | none => cases hs
      | some j => cases hs; simp [sideMeasure]; omega
    | takeResult =>
      cases sending with
      | some r => cases hs
      | none =>
        cases resend with
        | nil => cases hs
        | cons r resend => cases hs; simp [sideMeasure]; omega
    | send =>
      cases sending with
      | none => cases hs
      | some r =>
        simp only at hs
        split at hs <;> (cases hs; simp [sideMeasure])

/-! ## Theorems -/

/-- C99: whatever the schedule of the tasks of the server, the answers are sent in the order in which the jobs have been
received, each of them to its own job, with what the function gives for it: no job is answered twice, and none is
answered before a job received earlier. -/
theorem C99_answers (run : J → R) (picklable : R → Bool) (jobs : List J) (ls : List ServerSide.Label) (s : Srv J R)
    (h : ServerSide.Run run picklable (Srv.init jobs) ls s) :
    s.sent = (jobs.take s.sent.length).map (fun j => (j, run j)) := by
  have hi := SideInv.run h
  have key : ∀ rest, jobs.map (fun j => (j, run j)) = s.sent ++ rest →
      s.sent = (jobs.take s.sent.length).map (fun j => (j, run j)) := by
    intro rest e
    rw [List.map_take, e, List.take_left]
  cases hd : s.dead with
  | false =>
    have := hi.order hd
    rw [List.append_assoc, List.append_assoc] at this
    exact key _ this
  | true =>
    obtain ⟨j, rest, e, _⟩ := hi.dead hd
    exact key _ e

/-- C99: a server always makes progress: after at most five steps for each job nothing is left to do; and if all the
results can be pickled, when nothing is left to do every job has been answered. -/
theorem C99_all_answered_partial (run : J → R) (picklable : R → Bool) (jobs : List J)
    (hp : ∀ j ∈ jobs, picklable (run j) = true) (ls : List ServerSide.Label) (s : Srv J R)
    (h : ServerSide.Run run picklable (Srv.init jobs) ls s) :
    ls.length ≤ 5 * jobs.length ∧
    ((∀ l, ServerSide.step run picklable l s = none) → s.sent = jobs.map (fun j => (j, run j))) := by
  constructor
  · have key : ∀ {s0 s : Srv J R} {ls}, ServerSide.Run run picklable s0 ls s →
        sideMeasure s + ls.length = sideMeasure s0 := by
      intro s0 s ls hr
      induction hr with
      | nil => simp
      | snoc _ hs ih =>
        have := sideMeasure_step hs
        simp only [List.length_append, List.length_singleton]
        omega
    have := key h
    simp [sideMeasure, Srv.init] at this
    omega
  · intro hend
    have hi := SideInv.run h
    have hd : s.dead = false := by
      cases hd : s.dead with
      | false => rfl
      | true =>
        obtain ⟨j, rest, e, hf⟩ := hi.dead hd
        have hm : (j, run j) ∈ jobs.map (fun j => (j, run j)) := by rw [e]; simp
        obtain ⟨j', hj', e'⟩ := List.mem_map.1 hm
        cases e'
        rw [hp j hj'] at hf
        cases hf
    have ho := hi.order hd
    obtain ⟨inbox, todo, current, resend, sending, sent, dead⟩ := s
    simp only at hd
    subst hd
    simp only [ServerSide.step, Bool.false_eq_true, if_false] at hend
    have h1 := hend .receive
    have h3 := hend .finish
    have h5 := hend .send
    have h2 := hend .launch
    have h4 := hend .takeResult
    have e1 : inbox = [] := by
      cases inbox with
      | nil => rfl
      | cons j l => cases h1
    have e2 : current = none := by
      cases current with
      | none => rfl
      | some j => cases h3
    have e3 : sending = none := by
      cases sending with
      | none => rfl
      | some r =>
        simp only at h5
        split at h5 <;> cases h5
    subst e1 e2 e3
    have e4 : todo = [] := by
      cases todo with
      | nil => rfl
      | cons j l => cases h2
    have e5 : resend = [] := by
      cases resend with
      | nil => rfl
      | cons j l => cases h4
    subst e4 e5
    simpa using ho.symm

/-- C99 is false if one result (or exception) cannot be pickled: this job, and all the jobs sent to this server after it,
are never answered, whatever the schedule. -/
theorem C99_not_picklable_fails (run : J → R) (picklable : R → Bool) (jobs : List J) (k : Nat) (j : J)
    (hk : jobs[k]? = some j) (hp : picklable (run j) = false) (ls : List ServerSide.Label) (s : Srv J R)
    (h : ServerSide.Run run picklable (Srv.init jobs) ls s) : s.sent.length ≤ k := by
  have hi := SideInv.run h
  have ha := C99_answers run picklable jobs ls s h
  rcases Nat.lt_or_ge k s.sent.length with hlt | hge
  · exfalso
    have hm : (j, run j) ∈ s.sent := by
      rw [ha]
      refine List.mem_map.2 ⟨j, ?_, rfl⟩
      refine List.mem_of_getElem? (i := k) ?_
      rw [List.getElem?_take, if_pos hlt]
      exact hk
    have := hi.good _ hm
    simp only [hp] at this
    cases this
  · exact hge

/-- Executions of the executor in which the server `w` answers no more. -/
inductive DeadRun {κ : Type} (w n : Nat) (c : Exec.Cfg) : Servers.State κ → List Servers.Label → Servers.State κ → Prop
  | nil (s) : DeadRun w n c s [] s
  | snoc {s s' s'' : Servers.State κ} {ls : List Servers.Label} {l : Servers.Label} :
      DeadRun w n c s ls s' → Servers.step n c l s' = some s'' →
      (∀ i t, l = .answer i → s'.tasks[i]? = some t → t.worker ≠ w) → DeadRun w n c s (ls ++ [l]) s''

theorem deadRun_task {κ : Type} {w n : Nat} {c : Exec.Cfg} {l : Servers.Label} {s s' : Servers.State κ}
    (hs : Servers.step n c l s = some s')
    (hw : ∀ i t, l = .answer i → s.tasks[i]? = some t → t.worker ≠ w) (t : Servers.Job κ) (htw : t.worker = w)
    (hph : t.phase = .sent) (ht : t ∈ s.tasks) : t ∈ s'.tasks := by
  have keep : ∀ (i : Nat) (u x : Servers.Job κ), s.tasks[i]? = some u → u ≠ t → t ∈ s.tasks.set i x := by
    intro i u x hu hne
    obtain ⟨k, hk⟩ := List.getElem?_of_mem ht
    have hki : i ≠ k := fun e => hne (by rw [e, hk] at hu; exact (Option.some.inj hu).symm)
    refine List.mem_of_getElem? (i := k) ?_
    rw [List.getElem?_set_ne hki]
    exact hk
  have keepE : ∀ (i : Nat) (u : Servers.Job κ), s.tasks[i]? = some u → u ≠ t → t ∈ s.tasks.eraseIdx i := by
    intro i u hu hne
    have := (perm_eraseIdx hu).mem_iff.1 ht
    rcases List.mem_cons.1 this with e | e
    · exact absurd e.symm hne
    · exact e
  cases l with
  | send i =>
    simp only [Servers.step] at hs
    split at hs
    · rename_i u hu
      split at hs
      · rename_i hp
        cases hs
        exact keep i u _ hu (fun e => by rw [e, hph] at hp; cases hp)
      · cases hs
    · cases hs
  | answer i =>
    simp only [Servers.step] at hs
    split at hs
    · rename_i u hu
      split at hs
      · cases hs
        exact keep i u _ hu (fun e => hw i u rfl hu (by rw [e]; exact htw))
      · cases hs
    · cases hs
  | store i =>
    simp only [Servers.step] at hs
    split at hs
    · rename_i u hu
      split at hs
      · rename_i hp
        cases hs
        exact keepE i u hu (fun e => by rw [e, hph] at hp; cases hp)
      · cases hs
    · cases hs
  | begin i =>
    simp only [Servers.step] at hs
    split at hs
    · cases hs
    · split at hs
      · cases hs; exact ht
      · cases hs
        exact List.mem_append.2 (.inl ht)
  | pass =>
    simp only [Servers.step] at hs
    split at hs
    · cases hs; exact ht
    · cases hs
  | choose j =>
    simp only [Servers.step] at hs
    split at hs
    · cases hs; exact ht
    · cases hs
  | ioBegin =>
    simp only [Servers.step] at hs
    split at hs
    · cases hs
    · split at hs
      · cases hs; exact ht
      · cases hs
  | ioEnd i =>
    simp only [Servers.step] at hs
    split at hs
    · cases hs; exact ht
    · cases hs
  | check =>
    simp only [Servers.step] at hs
    cases hs; exact ht
  | cpuExit =>
    simp only [Servers.step] at hs
    split at hs
    · cases hs; exact ht
    · cases hs
  | ioExit =>
    simp only [Servers.step] at hs
    split at hs
    · cases hs; exact ht
    · cases hs

theorem step_stop {κ : Type} {n : Nat} {c : Exec.Cfg} {l : Servers.Label} {s s' : Servers.State κ}
    (hs : Servers.step n c l s = some s') (hl : l ≠ .check) : s'.stop = s.stop := by
  cases l <;> simp only [Servers.step] at hs
  case check => exact absurd rfl hl
  all_goals (split at hs <;> first | (cases hs; done) | skip)
  all_goals first | (cases hs; rfl) | skip
  all_goals (split at hs <;> first | (cases hs; rfl) | (cases hs))

/-- C99, consequence: if a server dies while it has jobs to answer, the executor never ends: the flag which tells the
launchers to return is never set, however long one waits and whatever the other servers do. -/
theorem C99_dead_server_fails {κ : Type} (n : Nat) (c : Exec.Cfg) (items : List κ) (ls : List Servers.Label)
    (s : Servers.State κ) (hrun : Servers.Run n c (Servers.init items) ls s) (hstop : s.stop = false)
    (t : Servers.Job κ) (ht : t ∈ s.tasks) (hph : t.phase = .sent) (ls' : List Servers.Label) (s' : Servers.State κ)
    (hdead : DeadRun t.worker n c s ls' s') : s'.stop = false ∧ t ∈ s'.tasks := by
  have key : s'.stop = false ∧ t ∈ s'.tasks ∧ SrvInv n items s' := by
    induction hdead with
    | nil => exact ⟨hstop, ht, SrvInv.run hrun⟩
    | @snoc s' s'' ls l _ hs hw ih =>
      obtain ⟨h1, h2, h3⟩ := ih
      refine ⟨?_, deadRun_task hs hw t rfl hph h2, h3.step hs⟩
      by_cases hl : l = .check
      · subst hl
        simp only [Servers.step, Option.some.injEq] at hs
        subst hs
        simp only [h1, Bool.false_or]
        have hw : t.worker < n := h3.lt.1 t h2
        have hu : s'.unoccupied t.worker = false := by
          cases hu : s'.unoccupied t.worker with
          | false => rfl
          | true =>
            have h0 := (h3.occ t.worker).1 hu
            unfold sentIn at h0
            rw [List.length_eq_zero_iff, List.filter_eq_nil_iff] at h0
            have := h0 t h2
            simp [hph] at this
        have : (List.range n).all s'.unoccupied = false := by
          rw [List.all_eq_false]
          exact ⟨t.worker, List.mem_range.2 hw, by simp [hu]⟩
        simp [this]
      · rw [step_stop hs hl]; exact h1
  exact ⟨key.1, key.2.1⟩

/-- C99 is false for the end of a server: when the executor asks it to stop and it has nothing to do, its tasks
`launch_works` and `send` never end, so that a server in a thread (`exec_async_servers_threading`) is never stopped; in
a process, it is killed. -/
theorem C99_stop_fails (turns : Nat) : (taskTurn false true)^[turns] .inner ≠ .ended := by
  have : ∀ k, (taskTurn false true)^[k] Pos.inner = .inner := by
    intro k
    induction k with
    | zero => rfl
    | succ k ih => rw [Function.iterate_succ', Function.comp_apply, ih]; rfl
  rw [this]
  decide

/-- C99: when the executor asks a server to stop while a task is executing a job, the task ends after this job, whatever is
still in its list. -/
theorem C99_stop_partial (empty : Bool) : (taskTurn false empty)^[2] .working = .ended := by
  cases empty <;> rfl

/-- C99: as long as it is not asked to stop, a task never ends, whatever the sequence of the states of its list. -/
theorem C99_continue (empty : Nat → Bool) (pos : Nat → Pos) (h0 : pos 0 = .outer)
    (hs : ∀ t, pos (t + 1) = taskTurn true (empty t) (pos t)) (t : Nat) : pos t ≠ .ended := by
  induction t with
  | zero => rw [h0]; decide
  | succ t ih =>
    rw [hs]
    cases hp : pos t with
    | outer => simp [taskTurn]
    | inner => simp only [taskTurn]; split <;> decide
    | working => simp [taskTurn]
    | ended => exact absurd hp ih

/-- Three jobs, in an order in which the results are sent while other jobs are executed. -/
def sideLabels : List ServerSide.Label :=
  [.receive, .launch, .receive, .finish, .launch, .takeResult, .receive, .finish, .send, .launch, .takeResult, .send,
    .finish, .takeResult, .send]

/-- The state after a list of labels. -/
def sideAfter (run : J → R) (picklable : R → Bool) : List ServerSide.Label → Srv J R → Option (Srv J R)
  | [], s => some s
  | l :: ls, s =>
    match ServerSide.step run picklable l s with
    | none => none
    | some s' => sideAfter run picklable ls s'

theorem sideAfter_run {run : J → R} {picklable : R → Bool} {ls ls0 : List ServerSide.Label} {s0 s s' : Srv J R}
    (h0 : ServerSide.Run run picklable s0 ls0 s) (h : sideAfter run picklable ls s = some s') :
    ServerSide.Run run picklable s0 (ls0 ++ ls) s' := by
  induction ls generalizing s ls0 with
  | nil => simp only [sideAfter, Option.some.injEq] at h; subst h; simpa using h0
  | cons l ls ih =>
    simp only [sideAfter] at h
    split at h
    · cases h
    · rename_i s1 h1
      simpa using ih (h0.snoc h1) h

example : ∃ s : Srv Nat Nat, ServerSide.Run (· * 10) (fun _ => true) (Srv.init [1, 2, 3]) sideLabels s ∧
    s.sent = [(1, 10), (2, 20), (3, 30)] :=
  ⟨_, by simpa using sideAfter_run (ls := sideLabels) (.nil _) rfl, rfl⟩

/-- A result which cannot be sent. -/
example : ∃ s : Srv Nat Nat, ServerSide.Run (· * 10) (fun r => r != 20) (Srv.init [1, 2, 3])
      (sideLabels.take 12) s ∧ s.sent = [(1, 10)] ∧ s.dead = true :=
  ⟨_, by simpa using sideAfter_run (ls := sideLabels.take 12) (.nil _) rfl, rfl, rfl⟩

/-- The executor with a server which dies: the hypotheses of `C99_dead_server_fails` are met. -/
example : ∃ s : Servers.State Nat, Servers.Run 2 ⟨2, 8, false⟩ (Servers.init [7, 8]) [.pass, .choose 0, .begin 0, .send 0] s ∧
    s.stop = false ∧ (⟨0, 7, .sent⟩ : Servers.Job Nat) ∈ s.tasks := by
  refine ⟨_, serversAfter_run rfl, rfl, ?_⟩
  simp [Servers.init]

end Verif
