import Verif.Model.Pipes
import Verif.Props.Multi
import Mathlib.Order.Nat
import Mathlib.Data.Nat.Find

/-!
# Texts written by the sub-processes (C94)
-/

namespace Verif
open Verif.Pipes Verif.Multi

/-! ## Specification -/

/-- Sub-processes: process `i` prints the texts `texts i` and exits with `code i`; when it is polled in turn `r` it has
done `done r i` steps. -/
structure SubProcs where
  results : Bool
  texts : Nat → List (Stage × Stream × Nat)
  code : Nat → Int
  done : Nat → Nat → Nat
  mono : ∀ r i, done r i ≤ done (r + 1) i

/-- The operating system gives time to every process. -/
def SubProcs.Fair (S : SubProcs) : Prop := ∀ i k, ∃ r, k ≤ S.done r i

/-- What the parent sees. -/
def SubProcs.poll (S : SubProcs) (cap r i : Nat) : Option Int :=
  pollChild cap (Child.start ((S.texts i).map (printed S.results))) (S.done r i) (S.code i)

/-- Number of bytes printed to `sys.stderr`. -/
def errBytes (l : List (Stage × Stream × Nat)) : Nat :=
  ((l.filter (fun t => decide (t.2.1 = .stderr))).map (·.2.2)).sum

/-- Number of bytes printed to `sys.stdout` which are not only for the log file. -/
def outBytes (results : Bool) (l : List (Stage × Stream × Nat)) : Nat :=
  ((l.filter (fun t => decide (t.2.1 = .stdout) && !(results && decide (t.1 = .compute)))).map (·.2.2)).sum

/-! ## Lemmas -/

namespace Pipes

/-- Bytes still to write. -/
def outSum : List Act → Nat
  | [] => 0
  | .out n :: l => n + outSum l
  | _ :: l => outSum l

def errSum : List Act → Nat
  | [] => 0
  | .err n :: l => n + errSum l
  | _ :: l => errSum l

/-- Steps needed. -/
def work : List Act → Nat
  | [] => 0
  | .out n :: l => n + 1 + work l
  | .err n :: l => n + 1 + work l
  | .work :: l => 1 + work l

theorem step_sums (cap : Nat) (c : Child) :
    (c.step cap).out + outSum (c.step cap).todo = c.out + outSum c.todo ∧
    (c.step cap).err + errSum (c.step cap).todo = c.err + errSum c.todo ∧
    (c.out ≤ cap → (c.step cap).out ≤ cap) ∧ (c.err ≤ cap → (c.step cap).err ≤ cap) := by
  obtain ⟨todo, out, err⟩ := c
  unfold Child.step
  match todo with
  | [] => simp
  | .work :: rest => simp [outSum, errSum]
  | .out 0 :: rest => simp [outSum, errSum]
  | .err 0 :: rest => simp [outSum, errSum]
  | .out (n + 1) :: rest =>
    by_cases h : out < cap
    · simp only [h, if_true, outSum, errSum]
      refine ⟨by omega, trivial, fun _ => by omega, fun h => h⟩
    · simp [h]
  | .err (n + 1) :: rest =>
    by_cases h : err < cap
    · simp only [h, if_true, outSum, errSum]
      refine ⟨trivial, by omega, fun h => h, fun _ => by omega⟩
    · simp [h]

theorem steps_sums (cap k : Nat) (c : Child) :
    (c.steps cap k).out + outSum (c.steps cap k).todo = c.out + outSum c.todo ∧
    (c.steps cap k).err + errSum (c.steps cap k).todo = c.err + errSum c.todo ∧
    (c.out ≤ cap → (c.steps cap k).out ≤ cap) ∧ (c.err ≤ cap → (c.steps cap k).err ≤ cap) := by
  induction k generalizing c with
  | zero => simp [Child.steps]
  | succ k ih =>
    obtain ⟨h1, h2, h3, h4⟩ := ih (c.step cap)
    obtain ⟨g1, g2, g3, g4⟩ := step_sums cap c
    unfold Child.steps
    exact ⟨h1.trans g1, h2.trans g2, fun h => h3 (g3 h), fun h => h4 (g4 h)⟩

/-- Enough room: every step makes progress. -/
theorem step_work (cap : Nat) (c : Child) (ho : c.out + outSum c.todo ≤ cap) (he : c.err + errSum c.todo ≤ cap) :
    work (c.step cap).todo = work c.todo - 1 := by
  obtain ⟨todo, out, err⟩ := c
  unfold Child.step
  match todo with
  | [] => simp [work]
  | .work :: rest => simp [work]
  | .out 0 :: rest => simp [work]
  | .err 0 :: rest => simp [work]
  | .out (n + 1) :: rest =>
    simp only [outSum] at ho
    have h : out < cap := by omega
    simp only [h, if_true, work]
    omega
  | .err (n + 1) :: rest =>
    simp only [errSum] at he
    have h : err < cap := by omega
    simp only [h, if_true, work]
    omega

theorem steps_work (cap k : Nat) (c : Child) (ho : c.out + outSum c.todo ≤ cap) (he : c.err + errSum c.todo ≤ cap) :
    work (c.steps cap k).todo = work c.todo - k := by
  induction k generalizing c with
  | zero => simp [Child.steps]
  | succ k ih =>
    obtain ⟨g1, g2, _, _⟩ := step_sums cap c
    unfold Child.steps
    rw [ih _ (by omega) (by omega), step_work cap c ho he]
    omega

theorem work_eq_zero {l : List Act} (h : work l = 0) : l = [] := by
  match l with
  | [] => rfl
  | .out n :: l => simp [work] at h
  | .err n :: l => simp [work] at h
  | .work :: l => simp [work] at h

theorem outSum_map (results : Bool) (l : List (Stage × Stream × Nat)) :
    outSum (l.map (printed results)) = outBytes results l := by
  induction l with
  | nil => rfl
  | cons t l ih =>
    obtain ⟨st, sr, n⟩ := t
    rw [List.map_cons]
    unfold outBytes at ih ⊢
    cases st <;> cases sr <;> cases results <;> simp_all [printed, outSum]

theorem errSum_map (results : Bool) (l : List (Stage × Stream × Nat)) :
    errSum (l.map (printed results)) = errBytes l := by
  induction l with
  | nil => rfl
  | cons t l ih =>
    obtain ⟨st, sr, n⟩ := t
    rw [List.map_cons]
    unfold errBytes at ih ⊢
    cases st <;> cases sr <;> cases results <;> simp_all [printed, errSum]

theorem loop_blocked {poll : Nat → Nat → Option Int} {i : Nat} (h : ∀ r, poll r i = none) (fuel r : Nat)
    (s : Multi.State) (hi : i ∈ s.running) : loop poll fuel r s = none := by
  induction fuel generalizing r s with
  | zero =>
    unfold loop
    split
    · rename_i he; rw [he] at hi; cases hi
    · rfl
  | succ fuel ih =>
    unfold loop
    split
    · rename_i he; rw [he] at hi; cases hi
    · refine ih _ _ ?_
      unfold Multi.turn
      show i ∈ (pollAll (poll r) s.running [] s.codes s.errors).1
      rw [(pollAll_spec (poll r) s.running [] s.codes s.errors).1, List.nil_append, List.mem_filter]
      exact ⟨hi, by simp [h r]⟩

end Pipes

/-- C94: a sub-process exits, given enough time, exactly if the bytes it writes to each pipe fit in the pipe; otherwise
it never exits. -/
theorem C94_exits_iff (cap : Nat) (results : Bool) (texts : List (Stage × Stream × Nat)) (code : Int) :
    (∃ k, pollChild cap (Child.start (texts.map (printed results))) k code = some code) ↔
      outBytes results texts ≤ cap ∧ errBytes texts ≤ cap := by
  have ho := Pipes.outSum_map results texts
  have he := Pipes.errSum_map results texts
  constructor
  · rintro ⟨k, hk⟩
    unfold pollChild at hk
    split at hk
    · rename_i h
      obtain ⟨h1, h2, h3, h4⟩ := Pipes.steps_sums cap k (Child.start (texts.map (printed results)))
      rw [h] at h1 h2
      have h3 := h3 (by simp [Child.start])
      have h4 := h4 (by simp [Child.start])
      simp only [Child.start, ho, he, Pipes.outSum, Pipes.errSum] at h1 h2 h3 h4
      omega
    · cases hk
  · rintro ⟨h1, h2⟩
    refine ⟨Pipes.work (texts.map (printed results)), ?_⟩
    have := Pipes.steps_work cap (Pipes.work (texts.map (printed results))) (Child.start (texts.map (printed results)))
      (by simpa [Child.start, ho] using h1) (by simpa [Child.start, he] using h2)
    unfold pollChild
    rw [Pipes.work_eq_zero (this.trans (by simp [Child.start]))]

theorem pollChild_none {cap : Nat} {c : Child} {code : Int} (h : ¬ ∃ k, pollChild cap c k code = some code) (k : Nat) :
    pollChild cap c k code = none := by
  cases hp : pollChild cap c k code with
  | none => rfl
  | some x =>
    exfalso
    refine h ⟨k, ?_⟩
    unfold pollChild at hp ⊢
    split at hp
    · rfl
    · cases hp

/-- C94 is false: if one of the sub-processes writes more bytes to `stderr` (or to `stdout`, outside what goes only to
the log file) than a pipe can hold, `compute` never returns, whatever the schedule and however long one waits. -/
theorem C94_blocked_fails (S : SubProcs) (cap n i : Nat) (hi : i < n)
    (h : cap < errBytes (S.texts i) ∨ cap < outBytes S.results (S.texts i)) (final : Option (Option PyErr))
    (fuel : Nat) : compute n (S.poll cap) final fuel = none := by
  have hnone : ∀ r, S.poll cap r i = none := by
    intro r
    refine pollChild_none ?_ _
    rw [C94_exits_iff]
    omega
  unfold compute
  rw [Pipes.loop_blocked hnone fuel 0 _ (by simpa using hi)]

theorem Pipes.pollChild_mono {cap : Nat} {c : Child} {code : Int} {k : Nat} (h : pollChild cap c k code ≠ none)
    (k' : Nat) (hk : k ≤ k') : pollChild cap c k' code = some code := by
  have key : ∀ (d : Nat) (c : Child), c.todo = [] → (c.steps cap d).todo = [] := by
    intro d
    induction d with
    | zero => intro c h; exact h
    | succ d ih =>
      intro c h
      unfold Child.steps
      refine ih _ ?_
      unfold Child.step
      rw [h]
      simpa using h
  have add : ∀ (a b : Nat) (c : Child), c.steps cap (a + b) = (c.steps cap a).steps cap b := by
    intro a
    induction a with
    | zero => intro b c; simp [Child.steps]
    | succ a ih =>
      intro b c
      rw [show a + 1 + b = (a + b) + 1 by omega]
      exact ih b _
  have h0 : (c.steps cap k).todo = [] := by
    unfold pollChild at h
    split at h
    · assumption
    · simp at h
  unfold pollChild
  have := key (k' - k) _ h0
  rw [← add, show k + (k' - k) = k' by omega] at this
  rw [this]

/-- C94 (part): if what each sub-process prints to `stderr` and to `stdout` (outside what goes only to the log file)
fits in a pipe, `compute` returns, whatever the schedule, provided that every process is given time.  Missing: larger
texts (`C94_blocked_fails`). -/
theorem C94_returns_partial (S : SubProcs) (hf : S.Fair) (cap n : Nat)
    (h : ∀ i, errBytes (S.texts i) ≤ cap ∧ outBytes S.results (S.texts i) ≤ cap) (final : Option (Option PyErr)) :
    ∃ fuel o, compute n (S.poll cap) final fuel = some o := by
  have hm : ∀ i r d, S.done r i ≤ S.done (r + d) i := by
    intro i r d
    induction d with
    | zero => exact le_refl _
    | succ d ih => exact ih.trans (S.mono _ _)
  have hex : ∀ i, ∃ r, S.poll cap r i ≠ none := by
    intro i
    obtain ⟨k, hk⟩ := (C94_exits_iff cap S.results (S.texts i) (S.code i)).2 ⟨(h i).2, (h i).1⟩
    obtain ⟨r, hr⟩ := hf i k
    refine ⟨r, ?_⟩
    have := Pipes.pollChild_mono (by rw [hk]; simp) _ hr
    unfold SubProcs.poll
    rw [this]
    simp
  classical
  let P : Procs := ⟨fun i => Nat.find (hex i), S.code⟩
  have hP : P.poll = S.poll cap := by
    funext r i
    unfold Procs.poll
    by_cases hle : P.exit i ≤ r
    · rw [if_pos hle]
      have h1 := Nat.find_spec (hex i)
      have h2 : S.done (P.exit i) i ≤ S.done r i := by
        have := hm i (P.exit i) (r - P.exit i)
        rwa [show P.exit i + (r - P.exit i) = r by omega] at this
      exact (Pipes.pollChild_mono h1 _ h2).symm
    · rw [if_neg hle]
      have := Nat.find_min (hex i) (m := r) (by simpa [P] using hle)
      exact (not_not.1 this).symm
  have hb : ∃ fuel, ∀ i < n, P.exit i < fuel := by
    clear hP
    induction n with
    | zero => exact ⟨0, by simp⟩
    | succ n ih =>
      obtain ⟨f, hf⟩ := ih
      refine ⟨max f (P.exit n + 1), fun i hi => ?_⟩
      rcases Nat.lt_succ_iff_lt_or_eq.1 hi with h | h
      · have := hf i h; omega
      · subst h; omega
  obtain ⟨fuel, hfu⟩ := hb
  obtain ⟨o, ho⟩ := C17_terminates P n fuel final hfu
  exact ⟨fuel, o, by rw [← hP]; exact ho⟩

/-- C94: what a topology with an attribute `results` prints to `stdout` during the computation does not matter. -/
theorem C94_stdout_logged (l : List (Stage × Stream × Nat)) (h : ∀ t ∈ l, t.1 = .compute) : outBytes true l = 0 := by
  unfold outBytes
  have : l.filter (fun t => decide (t.2.1 = .stdout) && !(true && decide (t.1 = .compute))) = [] := by
    rw [List.filter_eq_nil_iff]
    intro t ht
    simp [h t ht]
  rw [this]
  rfl

/-- Two sub-processes: one prints 70000 bytes to `stderr` in seven times, and a lot to `stdout`; the other one prints
little. -/
def pipesExample : SubProcs where
  results := true
  texts := fun i => if i = 0 then (List.replicate 7 (.compute, .stderr, 10000)) ++ [(.compute, .stdout, 1000000)]
    else [(.before, .stdout, 120), (.compute, .stdout, 1000000), (.after, .stderr, 50)]
  code := fun _ => 0
  done := fun r _ => r
  mono := by intro r i; omega

example : pipesExample.Fair ∧ 65536 < errBytes (pipesExample.texts 0) ∧
    outBytes true (pipesExample.texts 0) = 0 ∧ errBytes (pipesExample.texts 1) ≤ 65536 ∧
    outBytes true (pipesExample.texts 1) ≤ 65536 :=
  ⟨fun _ k => ⟨k, le_refl _⟩, by decide, by decide, by decide, by decide⟩

end Verif
